/-
Histories of calls on a muxer segment that writes frames at once.
-/
import Verif.Model.MuxerSegment
import Verif.Lemmas.MuxerAccurate

namespace Verif.Mux
open Verif Spec

theorem Sink.CleanTo.sure {s s' : Sink} (h : CleanTo s s') (hs : s.Sure) : s'.Sure := by
  intro i; rw [h.1]; exact hs i

theorem Sink.FailedTo.not_sure {s s' : Sink} (h : FailedTo s s') : ¬ s.Sure := by
  obtain ⟨-, i, -, -, h⟩ := h
  exact fun hs => h (hs i)

/-- The members that change while frames are handed over. -/
structure SegSt where
  cues : Cues
  newCuepoint : Bool
  forceNew : Bool
  closed : List Cluster
  cur : Option Cluster
  queue : List Frame
  queueUsed : Bool
  lastTs : Nat
  lastTrackTs : Nat → Nat

/-- The segment with those members. -/
def Seg.put (g : Seg) (t : SegSt) : Seg :=
  { g with cues := t.cues, newCuepoint := t.newCuepoint, forceNew := t.forceNew, closed := t.closed,
           cur := t.cur, queue := t.queue, queueUsed := t.queueUsed, lastTs := t.lastTs,
           lastTrackTs := t.lastTrackTs }

/-- A cluster in the file: its time code and its frames. -/
structure Piece where
  tc : Nat
  frames : List Frame

/-- Payload of a cluster. -/
def Piece.body (fixed : Bool) (scale : Nat) (p : Piece) : Bytes :=
  ({ timecode := p.tc, scale := scale, fixedTimecode := fixed } : Cluster).body p.frames

/-- Bytes of a cluster; `sized` says that the size field holds the size. -/
def Piece.bytes (fixed : Bool) (scale : Nat) (sized : Bool) (p : Piece) : Bytes :=
  clusterHead (if sized then vint 8 (p.body fixed scale).length else unknownSize) ++ p.body fixed scale

/-- Bytes of several clusters. -/
def piecesBytes (fixed : Bool) (scale : Nat) (sized : Bool) : List Piece → Bytes
  | [] => []
  | p :: ps => p.bytes fixed scale sized ++ piecesBytes fixed scale sized ps

theorem piecesBytes_append (fixed : Bool) (scale : Nat) (sized : Bool) (a b : List Piece) :
    piecesBytes fixed scale sized (a ++ b) =
      piecesBytes fixed scale sized a ++ piecesBytes fixed scale sized b := by
  induction a with
  | nil => rfl
  | cons p ps ih => simp [piecesBytes, ih]

theorem body_of {c : Cluster} {fixed : Bool} {scale tc : Nat} (h1 : c.timecode = tc) (h2 : c.scale = scale)
    (h3 : c.fixedTimecode = fixed) (ws : List Frame) : c.body ws = Piece.body fixed scale ⟨tc, ws⟩ := by
  unfold Piece.body Cluster.body Cluster.tcBytes
  rw [h1, h2, h3]

/-- The first frame of the track, and its number among all frames, from `n + 1` on. -/
def firstOf (track : Nat) : Nat → List Frame → Option (Nat × Nat)
  | _, [] => none
  | n, f :: fs => if track = f.trackNumber then some (f.timestamp, n + 1) else firstOf track (n + 1) fs

theorem firstOf_append (track : Nat) (f : Frame) : ∀ (ws : List Frame) (n : Nat),
    firstOf track n (ws ++ [f]) =
      match firstOf track n ws with
      | some x => some x
      | none => if track = f.trackNumber then some (f.timestamp, n + ws.length + 1) else none
  | [], n => by simp [firstOf]
  | g :: ws, n => by
    simp only [List.cons_append, firstOf]
    by_cases h : track = g.trackNumber
    · simp [h]
    · rw [if_neg h, if_neg h, firstOf_append track f ws (n + 1)]
      simp only [List.length_cons]
      rw [show n + 1 + ws.length + 1 = n + (ws.length + 1) + 1 by omega]

/-- The cue point for a cluster at offset `off` from the start of the segment's payload. -/
def cueFor (g : Seg) (off : Nat) (ws : List Frame) : List CuePoint :=
  match firstOf g.cuesTrack 0 ws with
  | none => []
  | some (ts, n) => [⟨ts / g.info.scale, g.cuesTrack, off % 2 ^ 64, n, g.cues.outputBlockNumber⟩]

/-- The cue points for clusters that follow each other from offset `off`. -/
def cuesFor (g : Seg) : Nat → List Piece → List CuePoint
  | _, [] => []
  | off, p :: ps => cueFor g off p.frames ++
      cuesFor g (off + (p.bytes g.fixedTimecode g.info.scale g.seekable).length) ps

theorem cuesFor_append (g : Seg) (b : List Piece) : ∀ (a : List Piece) (off : Nat),
    cuesFor g off (a ++ b) = cuesFor g off a ++
      cuesFor g (off + (piecesBytes g.fixedTimecode g.info.scale g.seekable a).length) b
  | [], off => by simp [cuesFor, piecesBytes]
  | p :: ps, off => by
    simp only [List.cons_append, cuesFor, piecesBytes, List.length_append]
    rw [cuesFor_append g b ps, List.append_assoc, Nat.add_assoc]

/-- The bytes of the closed clusters. -/
abbrev Seg.pre (g : Seg) (head : Bytes) (ps : List Piece) : Bytes :=
  head ++ piecesBytes g.fixedTimecode g.info.scale g.seekable ps

/-- What stays the same in a segment once its header is written, and what we ask of its settings. -/
structure Seg.Ready (g : Seg) (head : Bytes) : Prop where
  header : g.headerWritten = true
  version : g.docVersion = 4
  direct : g.accurate = false
  scale : 0 < g.info.scale
  alive : g.dangling = false
  payload : g.payloadPos ≤ head.length

/-- A cluster of the file is not empty, and its frames are valid and near its time code. -/
def Seg.GoodPiece (g : Seg) (p : Piece) : Prop :=
  p.tc < 2 ^ 63 ∧ p.frames ≠ [] ∧ ∀ f ∈ p.frames, f.isValid = true ∧ FitsTime p.tc g.info.scale f

/-- There is an open cluster `c`; the file holds `head`, the closed clusters `ps`, and `c` with the
frames `ws`; the cues are as they must be. -/
structure Seg.Open (g : Seg) (head : Bytes) (t : SegSt) (s : Sink) (ps : List Piece) (ws : List Frame)
    (c : Cluster) : Prop where
  cur : t.cur = some c
  sure : s.Sure
  holds : c.Holds s (g.pre head ps) ws
  tc : c.timecode < 2 ^ 63
  scale : c.scale = g.info.scale
  fixed : c.fixedTimecode = g.fixedTimecode
  direct : c.writeLast = false
  place : c.positionForCues = ((g.pre head ps).length : Int) - g.payloadPos
  cues : t.cues.entries = if g.outputCues then
    cuesFor g (head.length - g.payloadPos) (ps ++ [⟨c.timecode, ws⟩]) else []
  obn : t.cues.outputBlockNumber = g.cues.outputBlockNumber
  pend : t.newCuepoint = (g.outputCues && (firstOf g.cuesTrack 0 ws).isNone)
  none_closed : t.closed = [] ↔ ps = []
  first : ∀ k, t.closed.head? = some k → k.sizePosition = some (head.length + 4)
  good : ∀ p ∈ ps, g.GoodPiece p
  order : (ps.map Piece.tc ++ [c.timecode]).Pairwise (· ≤ ·)

theorem Seg.note_discard {g : Seg} {head : Bytes} (hg : g.Ready head) (t : SegSt) (f : Frame) (s : Sink) :
    Seg.noteDiscard f (g.put t) s = (.ok (), g.put t, s) := by
  unfold Seg.noteDiscard M.modify
  split
  · have : ∀ x : Seg, x.docVersion = 4 → { x with docVersion := 4 } = x := by
      intro x h; cases x; cases h; rfl
    exact congrArg (fun x => (Res.ok (), x, s)) (this (g.put t) hg.version)
  · rfl

theorem addFrame_open {c : Cluster} {s : Sink} {f : Frame} {pre : Bytes} {ws : List Frame}
    (h : c.Holds s pre ws) (hs : s.Sure) (hd : c.writeLast = false) (htc : c.timecode < 2 ^ 63)
    (hv : f.isValid = true) (hsm : SmallFrame f) (ht : f.timestamp / c.scale < 2 ^ 63) :
    ∃ r c' s', Cluster.addFrame f c s = (r, c', s') ∧ c.Keeps c' ∧ s'.Sure ∧
      ((r = .ok () ∧ FitsTime c.timecode c.scale f ∧ c'.Holds s' pre (ws ++ [f])) ∨
       ((∃ e, r = .err e) ∧ ¬ FitsTime c.timecode c.scale f ∧ c'.Holds s' pre ws)) := by
  rw [addFrame_direct hd]
  obtain ⟨r, c', s', h1, k, hc⟩ := doWriteFrame_holds h hsm htc ht
  refine ⟨r, c', s', h1, k, ?_⟩
  rcases hc with ⟨a, -, b, cl, hh, -⟩ | ⟨a, b, cl, hh, -⟩ | ⟨-, hf⟩
  · exact ⟨cl.sure hs, .inl ⟨a, b, hh⟩⟩
  · refine ⟨cl.sure hs, .inr ⟨a, ?_, hh⟩⟩
    rcases b with b | b
    · rw [hv] at b; cases b
    · exact b
  · exact absurd hs hf.not_sure

/-- Adding the block to the last cluster and the cue point for it. -/
theorem Seg.Open.cued {g : Seg} {head : Bytes} {t : SegSt} {s s' : Sink} {ps : List Piece}
    {ws : List Frame} {c c' : Cluster} (hg : g.Ready head) (h : g.Open head t s ps ws c) (k : c.Keeps c')
    (f' f : Frame) (hf1 : f'.trackNumber = f.trackNumber) (hf2 : f'.timestamp = f.timestamp)
    (hs : s'.Sure) (hh : c'.Holds s' (g.pre head ps) (ws ++ [f'])) :
    ∃ q n, Seg.maybeCue f (g.put { t with cur := some c' }) s' =
        (.ok (), g.put { t with cur := some c', cues := q, newCuepoint := n }, s') ∧
      g.Open head { t with cur := some c', cues := q, newCuepoint := n } s' ps (ws ++ [f']) c' := by
  have hpre : c'.positionForCues = ((g.pre head ps).length : Int) - g.payloadPos :=
    k.positionForCues.trans h.place
  have hcues := h.cues
  have hpl : (g.pre head ps).length = head.length +
      (piecesBytes g.fixedTimecode g.info.scale g.seekable ps).length := by simp [Seg.pre]
  have hpay := hg.payload
  -- the offset of the cluster
  have hoff : toU64 c'.positionForCues = (head.length - g.payloadPos +
      (piecesBytes g.fixedTimecode g.info.scale g.seekable ps).length) % 2 ^ 64 := by
    rw [hpre]
    unfold toU64
    omega
  have base : ∀ (q : Cues) (n : Bool), q.outputBlockNumber = g.cues.outputBlockNumber →
      q.entries = (if g.outputCues then
        cuesFor g (head.length - g.payloadPos) (ps ++ [⟨c.timecode, ws ++ [f']⟩]) else []) →
      n = (g.outputCues && (firstOf g.cuesTrack 0 (ws ++ [f'])).isNone) →
      g.Open head { t with cur := some c', cues := q, newCuepoint := n } s' ps (ws ++ [f']) c' := by
    intro q n h1 h2 h3
    exact ⟨rfl, hs, hh, k.timecode ▸ h.tc, k.scale.trans h.scale, k.fixedTimecode.trans h.fixed,
      k.writeLast.trans h.direct, hpre, by rw [k.timecode]; exact h2, h1, h3, h.none_closed, h.first, h.good,
      by rw [k.timecode]; exact h.order⟩
  unfold Seg.maybeCue
  rw [M.get_bind]
  show ∃ q n, (if (t.newCuepoint && g.cuesTrack == f.trackNumber) = true then
    Seg.addCuePoint f.timestamp g.cuesTrack else pure ()) _ _ = _ ∧ _
  have hsplit : ∀ x, cuesFor g (head.length - g.payloadPos) (ps ++ [⟨c.timecode, x⟩]) =
      cuesFor g (head.length - g.payloadPos) ps ++ cueFor g (head.length - g.payloadPos +
        (piecesBytes g.fixedTimecode g.info.scale g.seekable ps).length) x := by
    intro x
    rw [cuesFor_append]; simp [cuesFor]
  rw [hsplit] at hcues
  have hfa := firstOf_append g.cuesTrack f' ws 0
  by_cases hoc : g.outputCues = true
  rotate_left
  · have hoc : g.outputCues = false := by simpa using hoc
    refine ⟨t.cues, t.newCuepoint, ?_, base _ _ h.obn ?_ ?_⟩
    · rw [if_neg (by rw [h.pend, hoc]; simp)]; rfl
    · rw [hoc] at hcues ⊢; simpa using hcues
    · rw [h.pend, hoc]; rfl
  rw [hoc, if_pos rfl] at hcues
  cases hfo : firstOf g.cuesTrack 0 ws with
  | some x =>
    rw [hfo] at hfa
    refine ⟨t.cues, t.newCuepoint, ?_, base _ _ h.obn ?_ ?_⟩
    · rw [if_neg (by rw [h.pend, hfo]; simp)]; rfl
    · rw [hoc, if_pos rfl, hsplit, hcues]
      unfold cueFor; rw [hfo, hfa]
    · rw [h.pend, hfo, hfa]
  | none =>
    rw [hfo] at hfa
    simp only at hfa
    by_cases htr : g.cuesTrack = f.trackNumber
    · rw [if_pos (htr.trans hf1.symm)] at hfa
      refine ⟨t.cues.addCue ⟨f.timestamp / g.info.scale, g.cuesTrack, toU64 c'.positionForCues,
        c'.blocksAdded, true⟩, false, ?_, base _ _ ?_ ?_ ?_⟩
      · rw [if_pos (by rw [h.pend, hfo, hoc]; simp [htr])]
        rfl
      · exact h.obn
      · rw [hoc, if_pos rfl, hsplit]
        unfold Cues.addCue cueFor
        rw [hfa]
        simp only
        rw [hcues, h.obn, hoff, hh.blocks, hf2]
        unfold cueFor
        rw [hfo]
        simp
      · rw [hfa]; simp
    · rw [if_neg (by rw [hf1]; exact htr)] at hfa
      refine ⟨t.cues, t.newCuepoint, ?_, base _ _ h.obn ?_ ?_⟩
      · rw [if_neg (by simp [htr])]; rfl
      · rw [hoc, if_pos rfl, hsplit, hcues]
        unfold cueFor; rw [hfo, hfa]
      · rw [h.pend, hfo, hfa]

theorem onCur_put {g : Seg} {t : SegSt} {c c' : Cluster} {s s' : Sink} {m : M Cluster Unit} {r : Res Unit}
    (h : t.cur = some c) (hm : m c s = (r, c', s')) :
    Seg.onCur m (g.put t) s = (r, g.put { t with cur := some c' }, s') := by
  unfold Seg.onCur
  rw [show (g.put t).cur = some c from h]
  simp only
  rw [hm]
  rfl

/-- Only the cluster, the cues and the times change. -/
structure SegSt.Kept (t t' : SegSt) : Prop where
  forceNew : t'.forceNew = t.forceNew
  closed : t'.closed = t.closed
  queue : t'.queue = t.queue
  queueUsed : t'.queueUsed = t.queueUsed

theorem SegSt.Kept.refl (t : SegSt) : t.Kept t := ⟨rfl, rfl, rfl, rfl⟩
theorem SegSt.Kept.trans {a b c : SegSt} (h : a.Kept b) (h' : b.Kept c) : a.Kept c :=
  ⟨h'.1.trans h.1, h'.2.trans h.2, h'.3.trans h.3, h'.4.trans h.4⟩

/-- The predicate looks only at these members. -/
theorem Seg.Open.congr {g : Seg} {head : Bytes} {t t' : SegSt} {s : Sink} {ps : List Piece}
    {ws : List Frame} {c : Cluster} (h : g.Open head t s ps ws c) (h1 : t'.cur = t.cur)
    (h2 : t'.cues = t.cues) (h3 : t'.newCuepoint = t.newCuepoint) (h4 : t'.closed = t.closed) :
    g.Open head t' s ps ws c :=
  ⟨h1.trans h.cur, h.sure, h.holds, h.tc, h.scale, h.fixed, h.direct, h.place, by rw [h2]; exact h.cues,
    by rw [h2]; exact h.obn, by rw [h3]; exact h.pend, by rw [h4]; exact h.none_closed,
    by rw [h4]; exact h.first, h.good, h.order⟩

/-- The time of the last frame grows, but not beyond the frames `q`. -/
def SegSt.Adv (t t' : SegSt) (q : List Frame) : Prop :=
  t.lastTs ≤ t'.lastTs ∧ ∀ b, t.lastTs ≤ b → (∀ f ∈ q, f.timestamp ≤ b) → t'.lastTs ≤ b

theorem SegSt.Adv.refl (t : SegSt) (q : List Frame) : t.Adv t q := ⟨Nat.le_refl _, fun _ h _ => h⟩

theorem SegSt.Adv.mono {t t' : SegSt} {q q' : List Frame} (h : t.Adv t' q) (hq : ∀ f ∈ q, f ∈ q') : t.Adv t' q' :=
  ⟨h.1, fun b h1 h2 => h.2 b h1 fun f hf => h2 f (hq f hf)⟩

theorem SegSt.Adv.trans {t t' t'' : SegSt} {q : List Frame} (h : t.Adv t' q) (h' : t'.Adv t'' q) : t.Adv t'' q :=
  ⟨Nat.le_trans h.1 h'.1, fun b h1 h2 => h'.2 b (h.2 b h1 h2) h2⟩

/-- Writing a queued frame to the last cluster. -/
theorem writeQueued_open {g : Seg} {head : Bytes} {t : SegSt} {s : Sink} {ps : List Piece}
    {ws : List Frame} {c : Cluster} {f : Frame} (hg : g.Ready head) (h : g.Open head t s ps ws c)
    (hv : f.isValid = true) (hf : g.Fine f) (hfit : FitsTime c.timecode g.info.scale f) :
    ∃ t' s' c', Seg.writeQueued f (g.put t) s = (.ok (), g.put t', s') ∧
      g.Open head t' s' ps (ws ++ [f]) c' ∧ t.Kept t' ∧ c'.timecode = c.timecode ∧
      t.Adv t' [f] ∧ f.timestamp ≤ t'.lastTs := by
  unfold Seg.writeQueued
  rw [M.bind_of_ok (Seg.note_discard hg t f s)]
  obtain ⟨r, c', s', h1, k, hs, hc⟩ := addFrame_open h.holds h.sure h.direct h.tc hv hf.1
    (by rw [h.scale]; exact hf.2)
  rcases hc with ⟨rfl, -, hh⟩ | ⟨-, hn, -⟩
  rotate_left
  · rw [h.scale] at hn; exact absurd hfit hn
  rw [M.bind_of_ok (onCur_put h.cur h1)]
  obtain ⟨q, n, h2, ho⟩ := h.cued hg k f f rfl rfl hs hh
  rw [M.bind_of_ok h2]
  unfold M.modify
  by_cases hts : f.timestamp > t.lastTs
  · let t2 : SegSt := { t with cur := some c', cues := q, newCuepoint := n }
    refine ⟨{ t2 with lastTs := f.timestamp, lastTrackTs := upd t.lastTrackTs f.trackNumber f.timestamp }, s', c', ?_,
      ho.congr rfl rfl rfl rfl, ⟨rfl, rfl, rfl, rfl⟩, k.timecode,
      ⟨Nat.le_of_lt hts, fun b _ h2 => h2 f (by simp)⟩, Nat.le_refl _⟩
    show (Res.ok (), (if f.timestamp > t.lastTs then _ else _), s') = _
    rw [if_pos hts]; rfl
  · refine ⟨{ t with cur := some c', cues := q, newCuepoint := n }, s', c', ?_,
      ho, ⟨rfl, rfl, rfl, rfl⟩, k.timecode, .refl _ _, Nat.le_of_not_lt hts⟩
    show (Res.ok (), (if f.timestamp > t.lastTs then _ else _), s') = _
    rw [if_neg hts]

/-- What a queued frame must satisfy to be written to a cluster with time code `tc`. -/
def Seg.Writable (g : Seg) (tc : Nat) (f : Frame) : Prop :=
  f.isValid = true ∧ g.Fine f ∧ FitsTime tc g.info.scale f

theorem writeAllLoop_open {g : Seg} {head : Bytes} (hg : g.Ready head) : ∀ {q : List Frame} {t : SegSt}
    {s : Sink} {ps : List Piece} {ws : List Frame} {c : Cluster} (_ : g.Open head t s ps ws c)
    (_ : ∀ f ∈ q, g.Writable c.timecode f),
    ∃ t' s' c', Seg.writeAllLoop q (g.put t) s = (.ok (), g.put t', s') ∧
      g.Open head t' s' ps (ws ++ q) c' ∧ t.Kept t' ∧ c'.timecode = c.timecode ∧
      t.Adv t' q ∧ ∀ f ∈ q, f.timestamp ≤ t'.lastTs := by
  intro q
  induction q with
  | nil =>
    intro t s ps ws c h _
    exact ⟨t, s, c, rfl, by simpa using h, .refl t, rfl, .refl _ _, by simp⟩
  | cons f q ih =>
    intro t s ps ws c h hq
    obtain ⟨a, b, d⟩ := hq f (by simp)
    obtain ⟨t1, s1, c1, e1, o1, k1, tc1, l1, l1'⟩ := writeQueued_open hg h a b d
    obtain ⟨t2, s2, c2, e2, o2, k2, tc2, l2, l2'⟩ := ih o1 (fun x hx => by
      rw [tc1]; exact hq x (by simp [hx]))
    refine ⟨t2, s2, c2, ?_, by simpa using o2, k1.trans k2, tc2.trans tc1,
      (l1.mono (by simp)).trans (l2.mono (by intro x hx; simp [hx])), ?_⟩
    · unfold Seg.writeAllLoop
      rw [M.bind_of_ok (attempt_ok e1)]; exact e2
    · intro x hx
      rcases List.mem_cons.mp hx with rfl | hx
      · exact Nat.le_trans l1' l2.1
      · exact l2' x hx

/-- How many of the waiting frames belong to the cluster that is about to end: all that are followed by
another waiting frame not later than `ts`. -/
def earlyOnes (ts : Nat) (q : List Frame) : Nat := (q.tail.takeWhile fun x => decide (x.timestamp ≤ ts)).length

theorem lessLoop_open {g : Seg} {head : Bytes} (hg : g.Ready head) (ts : Nat) : ∀ {q : List Frame} {t : SegSt}
    {s : Sink} {ps : List Piece} {ws : List Frame} {c : Cluster} (_ : g.Open head t s ps ws c)
    (_ : ∀ f ∈ q, g.Writable c.timecode f),
    ∃ n t' s' c', Seg.lessLoop ts q (g.put t) s = (.ok (n, false), g.put t', s') ∧ (q ≠ [] → n < q.length) ∧
      g.Open head t' s' ps (ws ++ q.take n) c' ∧ t.Kept t' ∧ c'.timecode = c.timecode ∧
      t.Adv t' q ∧ n = earlyOnes ts q := by
  intro q
  induction q with
  | nil =>
    intro t s ps ws c h _
    exact ⟨0, t, s, c, rfl, by simp, by simpa using h, .refl t, rfl, .refl _ _, rfl⟩
  | cons f q ih =>
    intro t s ps ws c h hq
    cases q with
    | nil => exact ⟨0, t, s, c, rfl, by simp, by simpa using h, .refl t, rfl, .refl _ _, rfl⟩
    | cons f2 q =>
      unfold Seg.lessLoop
      by_cases hts : f2.timestamp > ts
      · rw [if_pos hts]
        exact ⟨0, t, s, c, rfl, by simp, by simpa using h, .refl t, rfl, .refl _ _, by
          have : ¬ f2.timestamp ≤ ts := by omega
          simp [earlyOnes, List.takeWhile, this]⟩
      · rw [if_neg hts]
        obtain ⟨a, b, d⟩ := hq f (by simp)
        obtain ⟨t1, s1, c1, e1, o1, k1, tc1, l1, l1'⟩ := writeQueued_open hg h a b d
        obtain ⟨n, t2, s2, c2, e2, hn, o2, k2, tc2, l2, en⟩ := ih o1 (fun x hx => by
          rw [tc1]; exact hq x (by simp [List.mem_cons] at hx ⊢; exact .inr hx))
        refine ⟨n + 1, t2, s2, c2, ?_, ?_, by simpa using o2, k1.trans k2, tc2.trans tc1,
          (l1.mono (by simp)).trans (l2.mono (by intro x hx; simp only [List.mem_cons] at hx ⊢; exact .inr hx)), ?_⟩
        rotate_right
        · have : f2.timestamp ≤ ts := by omega
          rw [en]; simp [earlyOnes, List.takeWhile, this]
        · rw [M.bind_of_ok (attempt_ok e1), M.bind_of_ok e2]; rfl
        · intro _
          have := hn (by simp)
          simp only [List.length_cons] at this ⊢; omega

/-- Closing the last cluster. -/
theorem finalize_open {c : Cluster} {s : Sink} {pre : Bytes} {ws : List Frame} (h : c.Holds s pre ws)
    (hs : s.Sure) (hd : c.writeLast = false) (hne : ws ≠ []) (seekable setLast : Bool) (d : Nat) :
    (∃ s', Cluster.finalize seekable setLast d c s = (.ok (), { c with finalized := true }, s') ∧ s'.Sure ∧
      ({ c with finalized := true } : Cluster).Closed seekable s' pre ws) ∨
    (∃ e s', Cluster.finalize seekable setLast d c s = (.err e, c, s') ∧ 2 ^ 56 ≤ s'.data.length + 1) := by
  unfold Cluster.finalize
  rw [M.get_bind, if_neg (by simp [h.open_])]
  have hfl : Cluster.flush setLast d c s = (.ok (), c, s) := by
    unfold Cluster.flush; rw [if_pos (by simp [hd])]
  rw [M.bind_of_ok hfl]
  rcases close_spec (seekable := seekable) h with ⟨s', h1, h2, h3⟩ | ⟨e, s', h1, h2⟩
  · exact .inl ⟨s', h1, h2.sure hs, h3⟩
  · refine .inr ⟨e, s', h1, ?_⟩
    rcases h2 with h2 | ⟨h2, -, -⟩ | ⟨h2, -, h3⟩
    · exact absurd hs h2.not_sure
    · exact absurd h2 hne
    · omega

/-- No cluster has been started. -/
structure Seg.Fresh (g : Seg) (head : Bytes) (t : SegSt) (s : Sink) : Prop where
  cur : t.cur = none
  atEnd : s.AtEnd
  sure : s.Sure
  data : s.data = head
  cues : t.cues.entries = []
  obn : t.cues.outputBlockNumber = g.cues.outputBlockNumber
  pend : t.newCuepoint = false
  closed : t.closed = []

theorem clusterTimecode_lt {g : Seg} {q : List Frame} {ts : Nat} (h : ts / g.info.scale < 2 ^ 63) :
    Seg.clusterTimecode g.info.scale q ts < 2 ^ 63 := by
  unfold Seg.clusterTimecode
  cases q with
  | nil => exact h
  | cons f q => simp only; split <;> omega

/-- The state after starting a cluster. -/
def Seg.started (g : Seg) (t : SegSt) (s : Sink) (ts : Nat) : Cluster :=
  { timecode := Seg.clusterTimecode g.info.scale t.queue ts
    positionForCues := (s.pos : Int) - g.payloadPos
    scale := g.info.scale
    writeLast := g.accurate
    fixedTimecode := g.fixedTimecode }

def Seg.start (g : Seg) (t : SegSt) (s : Sink) (ts : Nat) : SegSt :=
  { t with newCuepoint := (g.outputCues || t.newCuepoint), closed := t.closed ++ t.cur.toList,
           cur := some (g.started t s ts) }

theorem startCluster_run {g : Seg} {head : Bytes} (hg : g.Ready head) (t : SegSt) (s : Sink) (ts : Nat) :
    Seg.startCluster ts (g.put t) s = (.ok (), g.put (g.start t s ts), s) := by
  unfold Seg.startCluster
  rw [M.modify_bind, M.get_bind]
  have e : (if (g.put t).outputCues then { g.put t with newCuepoint := true } else g.put t) =
      g.put { t with newCuepoint := (g.outputCues || t.newCuepoint) } := by
    show (if g.outputCues then { g.put t with newCuepoint := true } else g.put t) = _
    cases g.outputCues <;> rfl
  simp only [e]
  have h1 := hg.scale
  have a1 : ∀ u, ¬ (g.put u).info.scale = 0 := fun u => Nat.ne_of_gt h1
  have a2 : ∀ u, ¬ (g.put u).dangling = true := fun u hc => by
    rw [show (g.put u).dangling = g.dangling from rfl, hg.alive] at hc; cases hc
  rw [if_neg (a1 _), if_neg (a2 _)]
  rfl

/-- A new cluster with nothing in it. -/
theorem started_open {g : Seg} {head : Bytes} (hg : g.Ready head) {t : SegSt} {s : Sink} {ps : List Piece}
    {ts : Nat} (hend : s.AtEnd) (hs : s.Sure) (hd : s.data = g.pre head ps) (hts : ts / g.info.scale < 2 ^ 63)
    (hcues : t.cues.entries = if g.outputCues then cuesFor g (head.length - g.payloadPos) ps else [])
    (hobn : t.cues.outputBlockNumber = g.cues.outputBlockNumber)
    (hpend : g.outputCues = false → t.newCuepoint = false)
    (hcl : t.closed ++ t.cur.toList = [] ↔ ps = [])
    (hfirst : ∀ k, (t.closed ++ t.cur.toList).head? = some k → k.sizePosition = some (head.length + 4))
    (hgood : ∀ p ∈ ps, g.GoodPiece p)
    (hord : (ps.map Piece.tc ++ [Seg.clusterTimecode g.info.scale t.queue ts]).Pairwise (· ≤ ·)) :
    g.Open head (g.start t s ts) s ps [] (g.started t s ts) := by
  refine ⟨rfl, hs, ⟨hend, rfl, rfl, fun _ => ⟨hd, rfl, rfl, rfl⟩, fun h => (nomatch h), by simp⟩,
    clusterTimecode_lt hts, rfl, rfl, hg.direct, ?_, ?_, hobn, ?_, hcl, hfirst, hgood, hord⟩
  · show (s.pos : Int) - g.payloadPos = _
    rw [show s.pos = s.data.length from hend, hd]
  · show t.cues.entries = _
    rw [cuesFor_append, hcues]
    simp [cuesFor, cueFor, firstOf]
  · show (g.outputCues || t.newCuepoint) = _
    cases ho : g.outputCues
    · rw [hpend ho]; rfl
    · rfl

theorem makeNew_fresh {g : Seg} {head : Bytes} (hg : g.Ready head) {t : SegSt} {s : Sink} {ts : Nat}
    (h : g.Fresh head t s) (hts : ts / g.info.scale < 2 ^ 63) :
    Seg.makeNewCluster ts (g.put t) s = (.ok (), g.put (g.start t s ts), s) ∧
    g.Open head (g.start t s ts) s [] [] (g.started t s ts) := by
  constructor
  · unfold Seg.makeNewCluster Seg.writeFramesLessThan Seg.endCluster
    have e1 : (g.put t).cur = none := h.cur
    rw [M.bind_of_ok (a := ()) (c' := g.put t) (s' := s) (by rw [M.get_bind, e1]; simp; rfl)]
    rw [M.bind_of_ok (a := ()) (c' := g.put t) (s' := s) (by rw [M.get_bind, e1]; rfl)]
    exact startCluster_run hg t s ts
  · refine started_open hg h.atEnd h.sure (by rw [h.data]; simp [Seg.pre, piecesBytes]) hts ?_ h.obn
      (fun _ => h.pend) (by simp [h.cur, h.closed]) (by simp [h.cur, h.closed]) (by simp) (by simp)
    rw [h.cues]; simp [cuesFor]

theorem makeNew_open {g : Seg} {head : Bytes} (hg : g.Ready head) {t : SegSt} {s : Sink} {ps : List Piece}
    {ws : List Frame} {c : Cluster} {ts : Nat} (h : g.Open head t s ps ws c) (hne : ws ≠ [])
    (hq : ∀ f ∈ t.queue, g.Writable c.timecode f) (hts : ts / g.info.scale < 2 ^ 63)
    (hle : c.timecode ≤ ts / g.info.scale) :
    (∃ n t' s' c', Seg.makeNewCluster ts (g.put t) s = (.ok (), g.put t', s') ∧
      (t.queue ≠ [] → n < t.queue.length) ∧
      g.Open head t' s' (ps ++ [⟨c.timecode, ws ++ t.queue.take n⟩]) [] c' ∧
      t'.queue = t.queue.drop n ∧ t'.queueUsed = t.queueUsed ∧ t'.forceNew = t.forceNew ∧
      t.Adv t' t.queue ∧ c'.timecode = Seg.clusterTimecode g.info.scale (t.queue.drop n) ts ∧
      n = earlyOnes ts t.queue) ∨
    (∃ e g' s', Seg.makeNewCluster ts (g.put t) s = (.err e, g', s') ∧ 2 ^ 56 ≤ s'.data.length + 1) := by
  have hless : ∃ n t1 s1 c1, Seg.writeFramesLessThan ts (g.put t) s = (.ok (), g.put t1, s1) ∧
      (t.queue ≠ [] → n < t.queue.length) ∧ g.Open head t1 s1 ps (ws ++ t.queue.take n) c1 ∧
      t1.queue = t.queue.drop n ∧ t1.queueUsed = t.queueUsed ∧ t1.forceNew = t.forceNew ∧
      c1.timecode = c.timecode ∧ t.Adv t1 t.queue ∧ n = earlyOnes ts t.queue := by
    unfold Seg.writeFramesLessThan
    rw [M.get_bind]
    have ec : (g.put t).cur = some c := h.cur
    have eq : (g.put t).queue = t.queue := rfl
    rw [ec, eq]
    by_cases hqe : t.queue = []
    · rw [if_pos (by simp [hqe])]
      exact ⟨0, t, s, c, rfl, fun hn => absurd hqe hn, by simpa using h, by simp, rfl, rfl, rfl,
        .refl _ _, by rw [hqe]; rfl⟩
    · have a2 : ∀ u, ¬ (g.put u).dangling = true := fun u hc => by
        rw [show (g.put u).dangling = g.dangling from rfl, hg.alive] at hc; cases hc
      rw [if_neg (by simp [hqe]), if_neg (a2 _)]
      obtain ⟨n, t1, s1, c1, e1, hn, o1, k1, tc1, l1, en⟩ := lessLoop_open hg ts h hq
      refine ⟨n, { t1 with queue := t1.queue.drop n }, s1, c1, ?_, hn, o1.congr rfl rfl rfl rfl, ?_,
        k1.queueUsed, k1.forceNew, tc1, l1, en⟩
      · rw [M.bind_of_ok e1]
        unfold M.modify
        have hal := hg.alive
        have : ∀ x : Seg, x.dangling = false → ∀ l, ({ x with queue := l, dangling := false } : Seg) =
            { x with queue := l } := by intro x h l; cases x; cases h; rfl
        exact congrArg (fun x => (Res.ok (), x, s1)) (this (g.put t1) hal _)
      · show t1.queue.drop n = _
        rw [k1.queue]
  obtain ⟨n, t1, s1, c1, e1, hn, o1, q1, u1, f1, tc1, l1, en⟩ := hless
  unfold Seg.makeNewCluster
  rw [M.bind_of_ok e1]
  have hne1 : ws ++ t.queue.take n ≠ [] := by
    intro hc; exact hne (List.append_eq_nil_iff.mp hc).1
  have hend : Seg.endCluster ts (g.put t1) s1 =
      Seg.onCur (Cluster.finalize g.seekable true ts) (g.put t1) s1 := by
    unfold Seg.endCluster
    rw [M.get_bind]
    have ec : (g.put t1).cur = some c1 := o1.cur
    rw [ec]; rfl
  rcases finalize_open o1.holds o1.sure o1.direct hne1 g.seekable true ts with
    ⟨s2, g1, g2, g3⟩ | ⟨e, s2, g1, g2⟩
  · rw [onCur_put o1.cur g1] at hend
    rw [M.bind_of_ok hend, startCluster_run hg]
    have hbody : ∀ x, ({ c1 with finalized := true } : Cluster).body x =
        Piece.body g.fixedTimecode g.info.scale ⟨c.timecode, x⟩ := fun x =>
      body_of (c := { c1 with finalized := true }) tc1 o1.scale o1.fixed x
    refine .inl ⟨n, _, s2, _, rfl, hn, started_open hg g3.atEnd g2 ?_ hts ?_ o1.obn ?_ ?_ ?_ ?_ ?_, q1, u1, f1, l1, ?_, en⟩
    · rw [g3.data, hbody]
      simp [Seg.pre, piecesBytes_append, piecesBytes, Piece.bytes]
    · show t1.cues.entries = _
      rw [o1.cues, tc1]
    · intro ho
      show t1.newCuepoint = false
      rw [o1.pend, ho]; rfl
    · simp
    · intro k hk
      have := o1.none_closed
      cases hcl : t1.closed with
      | nil =>
        rw [hcl] at this
        have hps := this.mp rfl
        simp only [hcl, List.nil_append, Option.toList_some, List.head?_cons, Option.some.injEq] at hk
        rw [← hk, g3.sizePos, hps]
        simp [Seg.pre, piecesBytes]
      | cons x xs =>
        refine o1.first k ?_
        simpa [hcl] using hk
    · intro p hp
      rcases List.mem_append.mp hp with hp | hp
      · exact o1.good p hp
      · rw [List.mem_singleton.mp hp]
        refine ⟨h.tc, hne1, fun f hf => ?_⟩
        obtain ⟨a, b⟩ := g3.fit f hf
        refine ⟨a, ?_⟩
        rw [← tc1, ← o1.scale]; exact b
    · have hnew : c.timecode ≤ Seg.clusterTimecode g.info.scale t1.queue ts := by
        rw [q1]
        unfold Seg.clusterTimecode
        split
        · exact hle
        · rename_i f fs hf
          have := (hq f (List.mem_of_mem_drop (i := n) (by rw [hf]; simp))).2.2.2.1
          split <;> omega
      have ho := h.order
      rw [List.pairwise_append] at ho
      show (_ ++ [Seg.clusterTimecode g.info.scale t1.queue ts]).Pairwise _
      rw [List.map_append, List.pairwise_append]
      refine ⟨h.order, by simp, fun a ha b hb => ?_⟩
      rw [List.mem_singleton.mp hb]
      rcases List.mem_append.mp ha with ha | ha
      · exact Nat.le_trans (ho.2.2 a ha c.timecode (by simp)) hnew
      · rw [List.map_singleton, List.mem_singleton] at ha
        rw [ha]; exact hnew
    · show Seg.clusterTimecode g.info.scale t1.queue ts = _
      rw [q1]
  · rw [onCur_put o1.cur g1] at hend
    rw [M.bind_of_err hend]
    exact .inr ⟨_, _, _, rfl, g2⟩

theorem writeFramesAll_open {g : Seg} {head : Bytes} (hg : g.Ready head) {t : SegSt}
    {s : Sink} {ps : List Piece} {ws : List Frame} {c : Cluster} (h : g.Open head t s ps ws c)
    (hu : t.queue ≠ [] → t.queueUsed = true) (hq : ∀ f ∈ t.queue, g.Writable c.timecode f) :
    ∃ t' s' c', Seg.writeFramesAll (g.put t) s = (.ok (), g.put t', s') ∧
      g.Open head t' s' ps (ws ++ t.queue) c' ∧ t'.queue = [] ∧ t'.forceNew = t.forceNew ∧
      c'.timecode = c.timecode ∧
      t.Adv t' t.queue ∧ ∀ f ∈ t.queue, f.timestamp ≤ t'.lastTs := by
  unfold Seg.writeFramesAll
  rw [M.get_bind]
  have eu : (g.put t).queueUsed = t.queueUsed := rfl
  have ec : (g.put t).cur = some c := h.cur
  have eq : (g.put t).queue = t.queue := rfl
  rw [eu, ec, eq]
  cases hqu : t.queueUsed
  · have he : t.queue = [] := by
      cases hqq : t.queue with
      | nil => rfl
      | cons a b => rw [hu (by rw [hqq]; simp)] at hqu; cases hqu
    exact ⟨t, s, c, rfl, by rw [he]; simpa using h, he, rfl, rfl, .refl _ _, by simp [he]⟩
  · have a2 : ∀ u, ¬ (g.put u).dangling = true := fun u hc => by
      rw [show (g.put u).dangling = g.dangling from rfl, hg.alive] at hc; cases hc
    rw [if_neg (by simp), if_neg (by simp), if_neg (a2 _)]
    obtain ⟨t1, s1, c1, e1, o1, k1, tc1, l1, l1'⟩ := writeAllLoop_open hg h hq
    rw [M.bind_of_ok e1]
    exact ⟨{ t1 with queue := [] }, s1, c1, rfl, o1.congr rfl rfl rfl rfl, rfl, k1.forceNew, tc1, l1, l1'⟩

/-- The frame's ticks relative to the last cluster fit, unless a new cluster is forced. -/
def SegSt.Near (g : Seg) (t : SegSt) (ts : Nat) : Prop :=
  t.forceNew = false → ∀ c, t.cur = some c →
    c.timecode ≤ ts / g.info.scale ∧ ts / g.info.scale ≤ c.timecode + 0x7FFF

theorem testFrame_near {g : Seg} {t : SegSt} {kind : TrackKind} {ts : Nat} {isKey : Bool}
    (h : t.Near g ts) : (g.put t).testFrame kind ts isKey = 1 ∨
      ((g.put t).testFrame kind ts isKey = 0 ∧ t.forceNew = false ∧ t.cur ≠ none) := by
  unfold Seg.testFrame
  have ef : (g.put t).forceNew = t.forceNew := rfl
  have ec : (g.put t).cur = t.cur := rfl
  rw [ef, ec]
  cases hf : t.forceNew
  · cases hc : t.cur with
    | none => exact .inl rfl
    | some c =>
      obtain ⟨h1, h2⟩ := h hf c hc
      have e : (g.put t).info = g.info := rfl
      simp only [e, Bool.false_eq_true, if_false]
      have hd : toI64 (ts / g.info.scale - c.timecode) = ((ts / g.info.scale - c.timecode : Nat) : Int) := by
        unfold toI64; omega
      rw [if_neg (by omega), hd, if_neg (by unfold kMaxBlockTimecode; omega)]
      split
      · exact .inl rfl
      · split
        · exact .inl rfl
        · split
          · exact .inl rfl
          · exact .inr ⟨rfl, by simp⟩
  · exact .inl rfl

/-- All frames of the clusters, in order. -/
def flatFrames (ps : List Piece) : List Frame := (ps.map Piece.frames).flatten

@[simp] theorem flatFrames_append (a b : List Piece) : flatFrames (a ++ b) = flatFrames a ++ flatFrames b := by
  simp [flatFrames]
@[simp] theorem flatFrames_one (p : Piece) : flatFrames [p] = p.frames := by simp [flatFrames]
@[simp] theorem flatFrames_nil : flatFrames [] = [] := rfl

/-- The new cluster's time code suits the frames waiting. -/
theorem clusterTimecode_open {g : Seg} {q : List Frame} {ts tc : Nat} (hs : SortedTs q)
    (hq : ∀ f ∈ q, g.Writable tc f) (htc : tc ≤ ts / g.info.scale) :
    Seg.clusterTimecode g.info.scale q ts ≤ ts / g.info.scale ∧
    (q = [] → Seg.clusterTimecode g.info.scale q ts = ts / g.info.scale) ∧
    (∀ f ∈ q, g.Writable (Seg.clusterTimecode g.info.scale q ts) f) ∧
    (∀ f ∈ q, Seg.clusterTimecode g.info.scale q ts ≤ f.timestamp / g.info.scale) := by
  cases q with
  | nil => simp [Seg.clusterTimecode]
  | cons a q =>
    have ha : ∀ f ∈ a :: q, a.timestamp / g.info.scale ≤ f.timestamp / g.info.scale := by
      intro f hf
      rcases List.mem_cons.mp hf with rfl | hf
      · exact Nat.le_refl _
      · exact Nat.div_le_div_right ((List.pairwise_cons.mp hs).1 f hf)
    have h0 := (hq a (by simp)).2.2.2.1
    have hle : Seg.clusterTimecode g.info.scale (a :: q) ts ≤ ts / g.info.scale ∧
        Seg.clusterTimecode g.info.scale (a :: q) ts ≤ a.timestamp / g.info.scale ∧
        tc ≤ Seg.clusterTimecode g.info.scale (a :: q) ts := by
      unfold Seg.clusterTimecode; simp only; split <;> omega
    refine ⟨hle.1, by simp, fun f hf => ?_, fun f hf => Nat.le_trans hle.2.1 (ha f hf)⟩
    obtain ⟨h1, h2, h3⟩ := hq f hf
    exact ⟨h1, h2, h3.1, Nat.le_trans hle.2.1 (ha f hf), by have := h3.2.2; omega⟩

theorem clusterTimecode_fresh {g : Seg} {q : List Frame} {ts : Nat} (hs : SortedTs q)
    (hsp : Span g.info.scale (q.map Frame.timestamp ++ [ts])) (h0 : 0 < g.info.scale)
    (hq : ∀ f ∈ q, f.isValid = true ∧ g.Fine f) :
    Seg.clusterTimecode g.info.scale q ts ≤ ts / g.info.scale ∧
    ts / g.info.scale ≤ Seg.clusterTimecode g.info.scale q ts + 0x7FFF ∧
    (q = [] → Seg.clusterTimecode g.info.scale q ts = ts / g.info.scale) ∧
    (∀ f ∈ q, g.Writable (Seg.clusterTimecode g.info.scale q ts) f) ∧
    (∀ f ∈ q, Seg.clusterTimecode g.info.scale q ts ≤ f.timestamp / g.info.scale) := by
  cases q with
  | nil => simp [Seg.clusterTimecode]
  | cons a q =>
    have ha : ∀ f ∈ a :: q, a.timestamp / g.info.scale ≤ f.timestamp / g.info.scale := by
      intro f hf
      rcases List.mem_cons.mp hf with rfl | hf
      · exact Nat.le_refl _
      · exact Nat.div_le_div_right ((List.pairwise_cons.mp hs).1 f hf)
    have hts := hsp ts (by simp) a.timestamp (by simp)
    have hle : Seg.clusterTimecode g.info.scale (a :: q) ts ≤ ts / g.info.scale ∧
        Seg.clusterTimecode g.info.scale (a :: q) ts ≤ a.timestamp / g.info.scale ∧
        (Seg.clusterTimecode g.info.scale (a :: q) ts = ts / g.info.scale ∨
          Seg.clusterTimecode g.info.scale (a :: q) ts = a.timestamp / g.info.scale) := by
      unfold Seg.clusterTimecode; simp only; split <;> omega
    refine ⟨hle.1, by omega, by simp, fun f hf => ?_, fun f hf => Nat.le_trans hle.2.1 (ha f hf)⟩
    obtain ⟨h1, h2⟩ := hq f hf
    refine ⟨h1, h2, h0, Nat.le_trans hle.2.1 (ha f hf), ?_⟩
    have m : f.timestamp ∈ (a :: q).map Frame.timestamp ++ [ts] :=
      List.mem_append_left _ (List.mem_map_of_mem hf)
    have h3 := hsp _ m ts (by simp)
    have h4 := hsp _ m a.timestamp (by simp)
    rcases hle.2.2 with e | e <;> rw [e] <;> assumption

/-- The state between two calls; `acc` are the frames accepted so far. -/
structure Seg.Between (g : Seg) (head : Bytes) (t : SegSt) (s : Sink) (acc : List Frame) : Prop where
  used : t.queue ≠ [] → t.queueUsed = true
  sorted : SortedTs t.queue
  fine : ∀ f ∈ t.queue, f.isValid = true ∧ g.Fine f
  held : ∀ f ∈ t.queue, g.queues f = true
  last : ∀ b, (∀ f ∈ acc, f.timestamp ≤ b) → t.lastTs ≤ b
  seen : ∀ b, acc.getLast? = some b → b.timestamp ≤ t.lastTs ∨ ∃ q ∈ t.queue, b.timestamp ≤ q.timestamp
  state : (g.Fresh head t s ∧ CarriedAll acc t.queue ∧ t.lastTs = 0) ∨
    ∃ ps ws c, g.Open head t s ps ws c ∧ ws ≠ [] ∧
      CarriedAll acc (flatFrames ps ++ ws ++ t.queue) ∧ c.timecode ≤ t.lastTs / g.info.scale ∧
      ∀ f ∈ t.queue, g.Writable c.timecode f

/-- The state when the cluster for the next frame is chosen and nothing waits in the queue. -/
structure Seg.Chosen (g : Seg) (head : Bytes) (t : SegSt) (s : Sink) (acc : List Frame) (ts : Nat)
    (waiting : List Frame) : Prop where
  idle : t.forceNew = false ∧ t.queue = []
  last : ∀ b, (∀ f ∈ acc, f.timestamp ≤ b) → t.lastTs ≤ b
  seen : ∀ b, acc.getLast? = some b → b.timestamp ≤ t.lastTs
  state : ∃ ps ws c, g.Open head t s ps ws c ∧ CarriedAll acc (flatFrames ps ++ ws) ∧
      c.timecode ≤ ts / g.info.scale ∧ (ws = [] → c.timecode = ts / g.info.scale) ∧
      (ws ≠ [] → c.timecode ≤ t.lastTs / g.info.scale) ∧
      ((∃ f ∈ waiting, f.timestamp / g.info.scale + 0x7FFF < ts / g.info.scale) ∨
        ts / g.info.scale ≤ c.timecode + 0x7FFF)

theorem _root_.Verif.Spec.CarriedAll.mem {a b : List Frame} (h : CarriedAll a b) : ∀ f ∈ b,
    ∃ x ∈ a, x.timestamp = f.timestamp := by
  induction h with
  | nil => simp
  | cons h _ ih =>
    intro f hf
    rcases List.mem_cons.mp hf with rfl | hf
    · exact ⟨_, by simp, h.time.symm⟩
    · obtain ⟨x, hx, e⟩ := ih f hf
      exact ⟨x, by simp [hx], e⟩

theorem _root_.Verif.Spec.CarriedAll.bound {a b : List Frame} (h : CarriedAll a b) {n : Nat}
    (hn : ∀ f ∈ a, f.timestamp ≤ n) : ∀ f ∈ b, f.timestamp ≤ n := by
  intro f hf
  obtain ⟨x, hx, e⟩ := h.mem f hf
  rw [← e]; exact hn x hx

theorem SortedTs.drop {q : List Frame} (h : SortedTs q) (n : Nat) : SortedTs (q.drop n) :=
  List.Pairwise.sublist (List.drop_sublist n q) h

/-- One round of the loop chooses the cluster. -/
theorem doNewCluster_one {g : Seg} {head : Bytes} (hg : g.Ready head) {t : SegSt} {s : Sink}
    {acc : List Frame} {ts : Nat} (kind : TrackKind) (isKey : Bool) (n : Nat)
    (h : g.Between head t s acc) (hnear : t.Near g ts) (hts : ts / g.info.scale < 2 ^ 63)
    (hl : t.lastTs ≤ ts)
    (hspan : t.cur = none → Span g.info.scale (t.queue.map Frame.timestamp ++ [ts])) :
    (∃ t' s', Seg.doNewCluster kind ts isKey (n + 1) (g.put t) s = (.ok (), g.put t', s') ∧
      g.Chosen head t' s' acc ts t.queue) ∨
    (∃ e g' s', Seg.doNewCluster kind ts isKey (n + 1) (g.put t) s = (.err e, g', s') ∧
      2 ^ 56 ≤ s'.data.length + 1) := by
  unfold Seg.doNewCluster
  rw [M.get_bind]
  have hmod : ∀ (f : Unit → M Seg Unit), ((M.modify fun g : Seg => { g with forceNew := false }) >>= f) (g.put t) s =
      f () (g.put { t with forceNew := false }) s := fun f => rfl
  rcases testFrame_near (g := g) (kind := kind) (isKey := isKey) hnear with hr | ⟨hr, hfn, hcn⟩
  · -- a new cluster
    simp only [hr]
    rw [if_neg (by decide), hmod]
    have hwhen : M.when (decide ((1 : Int) > 0)) (Seg.makeNewCluster ts) = Seg.makeNewCluster ts := rfl
    rw [hwhen]
    rcases h.state with ⟨hf, hacc, hl0⟩ | ⟨ps, ws, c, ho, hne, hacc, htc, hq⟩
    · have hf' : g.Fresh head { t with forceNew := false } s :=
        ⟨hf.1, hf.2, hf.3, hf.4, hf.5, hf.6, hf.7, hf.8⟩
      obtain ⟨e1, o1⟩ := makeNew_fresh hg hf' hts
      rw [M.bind_of_ok e1]
      obtain ⟨c1, c2, c3, c4, c5⟩ := clusterTimecode_fresh h.sorted (hspan hf.cur) hg.scale h.fine
      obtain ⟨t2, s2, k, e2, o2, q2, f2, tc2, l2, l2'⟩ := writeFramesAll_open hg o1 h.used c4
      rw [M.bind_of_ok e2, if_pos (by decide)]
      refine .inl ⟨t2, s2, rfl, ⟨f2, q2⟩, fun b hb => l2.2 b (h.last b hb) (hacc.bound hb), fun b hb => by
        rcases h.seen b hb with h1 | ⟨q, hq, h1⟩
        · exact Nat.le_trans h1 l2.1
        · exact Nat.le_trans h1 (l2' q hq), [], _, k, o2, ?_, ?_, ?_, ?_, ?_⟩
      · rw [flatFrames_nil, List.nil_append, List.nil_append]; exact hacc
      · rw [tc2]; exact c1
      · intro hn
        rw [tc2]; exact c3 (List.append_eq_nil_iff.mp hn).2
      · intro hn
        rw [tc2]
        have hqn : t.queue ≠ [] := fun hq => hn (by simp [Seg.start, hq])
        obtain ⟨a, m⟩ := List.exists_mem_of_ne_nil _ hqn
        exact Nat.le_trans (c5 a m) (Nat.div_le_div_right (l2' a m))
      · rw [tc2]; exact .inr c2
    · have ho' : g.Open head { t with forceNew := false } s ps ws c := ho.congr rfl rfl rfl rfl
      have hle : c.timecode ≤ ts / g.info.scale := Nat.le_trans htc (Nat.div_le_div_right hl)
      rcases makeNew_open hg ho' hne hq hts hle with ⟨m, t1, s1, c1, e1, hm, o1, q1, u1, f1, l1, tc1, -⟩ | ⟨e, g', s', e1, hb⟩
      rotate_left
      · rw [M.bind_of_err e1]
        exact .inr ⟨e, g', s', rfl, hb⟩
      rw [M.bind_of_ok e1]
      have hsort := SortedTs.drop h.sorted m
      obtain ⟨c2, c3, c4, c5⟩ := clusterTimecode_open (q := t.queue.drop m) (ts := ts) hsort
        (fun f hf => hq f (List.mem_of_mem_drop hf)) hle
      have hq1 : t1.queue = t.queue.drop m := q1
      obtain ⟨t2, s2, k, e2, o2, q2, f2, tc2, l2, l2'⟩ := writeFramesAll_open hg o1 (by
          intro hn
          rw [u1]
          refine h.used fun he => hn ?_
          rw [hq1, he]; simp) (by rw [hq1, tc1]; exact c4)
      rw [M.bind_of_ok e2, if_pos (by decide)]
      have f1' : t1.forceNew = false := f1
      have hqb : ∀ b, (∀ f ∈ acc, f.timestamp ≤ b) → ∀ f ∈ t.queue, f.timestamp ≤ b := fun b hb f hf =>
        hacc.bound hb f (List.mem_append_right _ hf)
      have hlast : ∀ b, (∀ f ∈ acc, f.timestamp ≤ b) → t2.lastTs ≤ b := fun b hb =>
        l2.2 b (l1.2 b (h.last b hb) (hqb b hb)) (by
          rw [hq1]; exact fun f hf => hqb b hb f (List.mem_of_mem_drop hf))
      have hseen : ∀ b, acc.getLast? = some b → b.timestamp ≤ t2.lastTs := fun b hb => by
        rcases h.seen b hb with h1 | ⟨q, hq, h1⟩
        · exact Nat.le_trans h1 (Nat.le_trans l1.1 l2.1)
        · have hlt : m < t.queue.length := hm (List.ne_nil_of_mem hq)
          have hmem : q ∈ t.queue.take m ++ t.queue.drop m := by rw [List.take_append_drop]; exact hq
          rcases List.mem_append.mp hmem with hq' | hq'
          · cases hdr : t.queue.drop m with
            | nil =>
              have := congrArg List.length hdr
              simp only [List.length_drop, List.length_nil] at this
              omega
            | cons a rest =>
              have hs := h.sorted
              unfold SortedTs at hs
              rw [← List.take_append_drop m t.queue] at hs
              have hle' := (List.pairwise_append.mp hs).2.2 q hq' a (by rw [hdr]; simp)
              exact Nat.le_trans h1 (Nat.le_trans hle' (l2' a (by rw [hq1, hdr]; simp)))
          · exact Nat.le_trans h1 (l2' q (by rw [hq1]; exact hq'))
      refine .inl ⟨t2, s2, rfl, ⟨f2.trans f1', q2⟩, hlast, hseen, _, _, k, o2, ?_, ?_, ?_, ?_, ?_⟩
      · rw [hq1]
        simp only [flatFrames_append, flatFrames_one, List.nil_append]
        have : flatFrames ps ++ (ws ++ t.queue.take m) ++ t.queue.drop m =
            flatFrames ps ++ ws ++ t.queue := by
          rw [List.append_assoc, List.append_assoc, List.append_assoc, List.take_append_drop]
        rw [this]; exact hacc
      · rw [tc2, tc1]; exact c2
      · intro hn
        rw [tc2, tc1]
        refine c3 ?_
        rw [hq1] at hn; simpa using hn
      · intro hn
        rw [hq1, List.nil_append] at hn
        rw [tc2, tc1]
        cases hqq : t.queue.drop m with
        | nil => exact absurd hqq hn
        | cons a q =>
          have hm' : a ∈ t.queue.drop m := by rw [hqq]; simp
          rw [← hqq]
          exact Nat.le_trans (c5 a hm') (Nat.div_le_div_right (l2' a (by rw [hq1]; exact hm')))
      · rw [tc2, tc1]
        cases hqq : t.queue.drop m with
        | nil => exact .inr (by simp only [Seg.clusterTimecode]; omega)
        | cons a q =>
          have hm' : a ∈ t.queue := List.mem_of_mem_drop (i := m) (by rw [hqq]; simp)
          simp only [Seg.clusterTimecode]
          split
          · by_cases hx : a.timestamp / g.info.scale + 0x7FFF < ts / g.info.scale
            · exact .inl ⟨a, hm', hx⟩
            · exact .inr (by omega)
          · exact .inr (by omega)
  · -- the last cluster is kept
    simp only [hr]
    rw [if_neg (by decide), hmod]
    have hwhen : M.when (decide ((0 : Int) > 0)) (Seg.makeNewCluster ts) = pure () := rfl
    rw [hwhen]
    have hpure : ∀ (f : Unit → M Seg Unit) x y, ((pure () : M Seg Unit) >>= f) x y = f () x y := fun _ _ _ => rfl
    rw [hpure]
    rcases h.state with ⟨hf, -⟩ | ⟨ps, ws, c, ho, hne, hacc, htc, hq⟩
    · exact absurd hf.cur hcn
    have ho' : g.Open head { t with forceNew := false } s ps ws c := ho.congr rfl rfl rfl rfl
    obtain ⟨t2, s2, k, e2, o2, q2, f2, tc2, l2, l2'⟩ := writeFramesAll_open hg ho' h.used hq
    rw [M.bind_of_ok e2, if_pos (by decide)]
    obtain ⟨n1, n2⟩ := hnear hfn c ho.cur
    refine .inl ⟨t2, s2, rfl, ⟨f2, q2⟩, fun b hb => l2.2 b (h.last b hb) fun f hf =>
      hacc.bound hb f (List.mem_append_right _ hf), fun b hb => by
        rcases h.seen b hb with h1 | ⟨q, hq, h1⟩
        · exact Nat.le_trans h1 l2.1
        · exact Nat.le_trans h1 (l2' q hq), ps, _, k, o2, ?_, ?_, ?_, ?_, ?_⟩
    · rw [← List.append_assoc]; exact hacc
    · rw [tc2]; exact n1
    · intro hn; exact absurd (List.append_eq_nil_iff.mp hn).1 hne
    · intro _
      rw [tc2]
      have l2'' : t.lastTs ≤ t2.lastTs := l2.1
      exact Nat.le_trans htc (Nat.div_le_div_right l2'')
    · rw [tc2]; exact .inr n2

theorem Seg.Numbered.frame {g : Seg} (h : g.Numbered) {f : Frame} {e : TrackEntry}
    (hk : g.tracks.byNumber f.trackNumber = some e) : 1 ≤ f.trackNumber ∧ f.trackNumber ≤ 126 := by
  unfold Tracks.byNumber at hk
  have h1 := List.mem_of_find?_eq_some hk
  have h2 := List.find?_some hk
  simp only [beq_iff_eq] at h2
  rw [← h2]; exact h e h1

theorem copy_same {f : Frame} (h : f.additional ≠ some []) : Carried f f.copy ∧
    f.copy.isValid = f.isValid ∧ (f.copy.frame = f.frame ∧ f.copy.additional = f.additional) ∧
    f.copy.timestamp = f.timestamp := by
  unfold Frame.copy
  split
  · rename_i b bs hb
    refine ⟨⟨⟨rfl, rfl, rfl, rfl, hb.symm, fun _ => rfl, rfl⟩, rfl, fun _ => rfl⟩, ?_, ⟨rfl, hb.symm⟩, rfl⟩
    unfold Frame.isValid Frame.canBeSimpleBlock
    simp only [hb]
  · rename_i hx
    have hn : f.additional = none := by
      cases ha : f.additional with
      | none => rfl
      | some a =>
        cases a with
        | nil => exact absurd ha h
        | cons b bs => exact absurd ha (hx b bs)
    refine ⟨⟨⟨rfl, rfl, rfl, rfl, hn.symm, fun hc => absurd hn hc, rfl⟩, rfl, fun _ => rfl⟩, ?_, ⟨rfl, hn.symm⟩, rfl⟩
    unfold Frame.isValid Frame.canBeSimpleBlock
    simp only [hn]

theorem _root_.Verif.Spec.Carried.refl (f : Frame) : Carried f f :=
  ⟨⟨rfl, rfl, rfl, rfl, rfl, fun _ => rfl, rfl⟩, rfl, fun _ => rfl⟩

theorem fine_copy {g : Seg} {f : Frame} (h : f.additional ≠ some []) (hf : g.Fine f) : g.Fine f.copy := by
  obtain ⟨-, -, ⟨h1, h2⟩, h3⟩ := copy_same h
  unfold Seg.Fine SmallFrame at *
  rw [h1, h2, h3]; exact hf

theorem sound_valid {g : Seg} {f : Frame} (h : g.Sound f) (hn : 1 ≤ f.trackNumber ∧ f.trackNumber ≤ 126)
    (hr : f.canBeSimpleBlock = true ∨ f.isKey = true ∨ f.referenceBlockTimestampSet = true) :
    f.isValid = true := by
  unfold Frame.isValid
  rw [if_neg (by simpa using h.data), if_neg h.additional,
    if_neg (by unfold kMaxTrackNumber; omega)]
  rcases hr with h | h | h <;> simp [h]

/-- The frame handed to the cluster is valid and carries the user's frame. -/
theorem withReference_spec {g : Seg} {f : Frame} (t : SegSt) (h : g.Sound f)
    (hn : 1 ≤ f.trackNumber ∧ f.trackNumber ≤ 126) :
    Carried f ((g.put t).withReference f) ∧ ((g.put t).withReference f).isValid = true ∧
    g.Fine ((g.put t).withReference f) := by
  unfold Seg.withReference
  by_cases hc : (!f.canBeSimpleBlock && !f.isKey && !f.referenceBlockTimestampSet) = true
  · rw [if_pos hc]
    obtain ⟨h1, h2, h3, h4⟩ := copy_same h.additional
    have hrs : f.referenceBlockTimestampSet = false := by
      simp only [Bool.and_eq_true, Bool.not_eq_true'] at hc; exact hc.2
    refine ⟨⟨⟨h1.track, h1.time, h1.data, h1.key, h1.additional, h1.addId, h1.discard⟩, h1.duration,
      fun hs => by rw [hrs] at hs; cases hs⟩, ?_, fine_copy h.additional h.fine⟩
    have d1 : ¬ f.copy.frame.length = 0 := by rw [h3.1]; simpa using h.data
    have d2 : ¬ f.copy.additional = some [] := by rw [h3.2]; exact h.additional
    have d3 : ¬ (f.copy.trackNumber = 0 ∨ f.copy.trackNumber > kMaxTrackNumber) := by
      rw [h1.track]; unfold kMaxTrackNumber; omega
    unfold Frame.isValid
    simp only [if_neg d1, if_neg d2, if_neg d3]
    simp
  · rw [if_neg hc]
    refine ⟨.refl f, sound_valid h hn ?_, h.fine⟩
    cases h1 : f.canBeSimpleBlock <;> cases h2 : f.isKey <;> cases h3 : f.referenceBlockTimestampSet <;>
      simp_all

theorem _root_.Verif.Spec.CarriedAll.append {a b c d : List Frame} (h : CarriedAll a c) (h' : CarriedAll b d) :
    CarriedAll (a ++ b) (c ++ d) := by
  induction h with
  | nil => exact h'
  | cons h _ ih => exact .cons h ih

theorem Seg.Open.refused {g : Seg} {head : Bytes} {t : SegSt} {s s' : Sink} {ps : List Piece}
    {ws : List Frame} {c c' : Cluster} (h : g.Open head t s ps ws c) (k : c.Keeps c')
    (hs : s'.Sure) (hh : c'.Holds s' (g.pre head ps) ws) :
    g.Open head { t with cur := some c' } s' ps ws c' :=
  ⟨rfl, hs, hh, k.timecode ▸ h.tc, k.scale.trans h.scale, k.fixedTimecode.trans h.fixed,
    k.writeLast.trans h.direct, k.positionForCues.trans h.place, by rw [k.timecode]; exact h.cues, h.obn, h.pend,
    h.none_closed, h.first, h.good, by rw [k.timecode]; exact h.order⟩

/-- Writing the frame to the chosen cluster. -/
theorem writeDirect_chosen {g : Seg} {head : Bytes} (hg : g.Ready head) {t : SegSt} {s : Sink}
    {acc : List Frame} {f : Frame} {waiting : List Frame} (h : g.Chosen head t s acc f.timestamp waiting)
    (hsd : g.Sound f) (hn : 1 ≤ f.trackNumber ∧ f.trackNumber ≤ 126) :
    ∃ r t' s', Seg.writeDirect f (g.put t) s = (r, g.put t', s') ∧ t'.cur ≠ none ∧ t'.queue = [] ∧
      t'.forceNew = false ∧
      ((r = .ok () ∧ g.Between head t' s' (acc ++ [f])) ∨
       ((∃ e, r = .err e) ∧ g.Between head t' s' acc ∧
        ∃ w ∈ waiting, w.timestamp / g.info.scale + 0x7FFF < f.timestamp / g.info.scale)) := by
  obtain ⟨ps, ws, c, ho, hacc, h1, h2, h3, h4⟩ := h.state
  obtain ⟨w1, w2, w3⟩ := withReference_spec t hsd hn
  unfold Seg.writeDirect
  rw [M.get_bind, if_neg (by simp [kMaxTrackNumber]; omega)]
  obtain ⟨r, c', s', e1, k, hs, hc⟩ := addFrame_open ho.holds ho.sure ho.direct ho.tc w2 w3.1
    (by rw [ho.scale]; exact w3.2)
  rcases hc with ⟨rfl, hfit, hh⟩ | ⟨⟨e, rfl⟩, hfit, hh⟩
  · rw [M.bind_of_ok (onCur_put ho.cur e1)]
    obtain ⟨q, m, e2, o2⟩ := ho.cued hg k _ f w1.track w1.time hs hh
    rw [M.bind_of_ok e2]
    refine ⟨.ok (), { t with cur := some c', cues := q, newCuepoint := m, lastTs := f.timestamp, lastTrackTs := upd t.lastTrackTs f.trackNumber f.timestamp }, s', rfl, by simp, h.idle.2, h.idle.1, .inl ⟨rfl, ?_⟩⟩
    refine ⟨fun hq => absurd h.idle.2 hq, ?_, ?_, by rw [h.idle.2]; simp, fun b hb => hb f (by simp), fun b hb => .inl (by
        rw [List.getLast?_concat] at hb; cases hb; exact Nat.le_refl _), .inr ⟨ps, _, c', o2.congr rfl rfl rfl rfl, by simp, ?_, ?_, ?_⟩⟩
    · show SortedTs t.queue
      rw [h.idle.2]; exact List.Pairwise.nil
    · show ∀ x ∈ t.queue, _
      rw [h.idle.2]; simp
    · show CarriedAll _ (_ ++ t.queue)
      rw [h.idle.2, List.append_nil, ← List.append_assoc]
      exact hacc.append (.cons w1 .nil)
    · rw [k.timecode]; exact h1
    · show ∀ x ∈ t.queue, _
      rw [h.idle.2]; simp
  · rw [M.bind_of_err (onCur_put ho.cur e1)]
    have hfit' : ¬ f.timestamp / g.info.scale ≤ c.timecode + 0x7FFF := by
      intro hle
      refine hfit ?_
      unfold FitsTime
      rw [ho.scale, w1.time]
      exact ⟨hg.scale, h1, hle⟩
    have hne : ws ≠ [] := fun hw => hfit' (by rw [h2 hw]; omega)
    refine ⟨.err e, { t with cur := some c' }, s', rfl, by simp, h.idle.2, h.idle.1, .inr ⟨⟨e, rfl⟩, ?_, ?_⟩⟩
    · refine ⟨fun hq => absurd h.idle.2 hq, ?_, ?_, by rw [h.idle.2]; simp, h.last, fun b hb => .inl (h.seen b hb), .inr ⟨ps, ws, c', ho.refused k hs hh, hne, ?_, ?_, ?_⟩⟩
      · show SortedTs t.queue
        rw [h.idle.2]; exact List.Pairwise.nil
      · show ∀ x ∈ t.queue, _
        rw [h.idle.2]; simp
      · show CarriedAll _ (_ ++ t.queue)
        rw [h.idle.2, List.append_nil]; exact hacc
      · rw [k.timecode]; exact h3 hne
      · show ∀ x ∈ t.queue, _
        rw [h.idle.2]; simp
    · rcases h4 with h4 | h4
      · exact h4
      · exact absurd h4 hfit'

/-- What the rest of a history must satisfy. -/
structure Seg.Orderly (g : Seg) (t : SegSt) (xs : List SegCall) : Prop where
  sound : ∀ f, .frame f ∈ xs → g.Sound f
  waiting : (t.queue.map Frame.timestamp ++ g.waitTimes xs).Pairwise (· ≤ ·)
  start : t.cur = none → Span g.info.scale (t.queue.map Frame.timestamp ++ g.opening t.forceNew xs)

/-- Why a frame is refused. -/
def Seg.Refuses (g : Seg) (t : SegSt) (f : Frame) : Prop :=
  f.timestamp < t.lastTs ∨ g.knows f = false ∨
    ∃ w ∈ t.queue, w.timestamp / g.info.scale + 0x7FFF < f.timestamp / g.info.scale

theorem noteFar_run (g : Seg) (t : SegSt) (f : Frame) (s : Sink) (hts : f.timestamp / g.info.scale < 2 ^ 63)
    (hc : ∀ c, t.cur = some c → c.timecode ≤ f.timestamp / g.info.scale) :
    ∃ b, Seg.noteFar f (g.put t) s = (.ok (), g.put { t with forceNew := b }, s) ∧
      (t.cur = none → b = t.forceNew) ∧ (t.forceNew = true → b = true) ∧
      ({ t with forceNew := b } : SegSt).Near g f.timestamp := by
  rcases t with ⟨cu, np, fn, cl, cur, q, qu, lt, ltt⟩
  unfold Seg.noteFar M.modify
  cases cur with
  | none => exact ⟨fn, rfl, fun _ => rfl, id, fun _ c h => (nomatch h)⟩
  | some c =>
    have h1 := hc c rfl
    have hsub : subU64 (f.timestamp / g.info.scale) c.timecode = f.timestamp / g.info.scale - c.timecode := by
      unfold subU64 toU64; omega
    have hk : kMaxBlockTimecode.toNat = 0x7FFF := rfl
    by_cases h : subU64 (f.timestamp / g.info.scale) c.timecode > kMaxBlockTimecode.toNat
    · exact ⟨true, congrArg (fun x => (Res.ok (), x, s)) (if_pos h), fun h => (nomatch h), fun _ => rfl,
        fun h => (nomatch h)⟩
    · refine ⟨fn, congrArg (fun x => (Res.ok (), x, s)) (if_neg h), fun _ => rfl, id, fun _ c' h' => ?_⟩
      cases h'
      exact ⟨h1, by rw [hsub, hk] at h; show f.timestamp / g.info.scale ≤ _; omega⟩

theorem pairwise_le_mid {a b : List Nat} {x : Nat} (h : (a ++ x :: b).Pairwise (· ≤ ·)) : ∀ y ∈ a, y ≤ x := by
  intro y hy
  exact (List.pairwise_append.mp h).2.2 y hy x (by simp)

/-- One call on a segment whose header is written. -/
theorem call_step {g : Seg} {head : Bytes} (hg : g.Ready head) (hn : g.Numbered) {t : SegSt} {s : Sink}
    {acc : List Frame} (h : g.Between head t s acc) {x : SegCall} {rest : List SegCall}
    (ho : g.Orderly t (x :: rest)) :
    ∃ r g' s', Seg.call x (g.put t) s = (r, g', s') ∧ (2 ^ 56 ≤ s'.data.length + 1 ∨
      ∃ t', g' = g.put t' ∧ g.Orderly t' rest ∧
        ((r = .ok () ∧ g.Between head t' s' (acc ++ x.frames)) ∨
         ((∃ e, r = .err e) ∧ g.Between head t' s' acc ∧ ∃ f, x = .frame f ∧ g.Refuses t f))) := by
  have hsound : ∀ f, .frame f ∈ rest → g.Sound f := fun f hf => ho.sound f (by simp [hf])
  cases x with
  | force =>
    refine ⟨_, _, s, rfl, .inr ⟨{ t with forceNew := true }, rfl, ⟨hsound, ho.waiting, ho.start⟩,
      .inl ⟨rfl, ?_⟩⟩⟩
    simp only [SegCall.frames, List.append_nil]
    refine ⟨h.used, h.sorted, h.fine, h.held, h.last, h.seen, ?_⟩
    rcases h.state with ⟨hf, hacc, hl⟩ | ⟨ps, ws, c, o, h1, h2, h3, h4⟩
    · exact .inl ⟨⟨hf.1, hf.2, hf.3, hf.4, hf.5, hf.6, hf.7, hf.8⟩, hacc, hl⟩
    · exact .inr ⟨ps, ws, c, o.congr rfl rfl rfl rfl, h1, h2, h3, h4⟩
  | frame f =>
    have hs := ho.sound f (by simp)
    have hwt := ho.waiting
    have hst := ho.start
    have hck : Seg.checkHeaderInfo (g.put t) s = (.ok (), g.put t, s) := by
      unfold Seg.checkHeaderInfo
      rw [M.get_bind, if_pos (show (g.put t).headerWritten = true from hg.header)]; rfl
    show ∃ r g' s', Seg.addGenericFrame f (g.put t) s = _ ∧ _
    unfold Seg.addGenericFrame
    rw [M.bind_of_ok hck, M.get_bind]
    have el : (g.put t).lastTs = t.lastTs := rfl
    have et : (g.put t).tracks = g.tracks := rfl
    rw [el, et]
    have hkeep : ∀ {e : Nat}, g.Refuses t f → (g.knows f = false ∨ (f.timestamp < t.lastTs)) →
        ∃ r g' s', ((Res.err e : Res Unit), g.put t, s) = (r, g', s') ∧ (2 ^ 56 ≤ s'.data.length + 1 ∨
      ∃ t', g' = g.put t' ∧ g.Orderly t' rest ∧
        ((r = .ok () ∧ g.Between head t' s' (acc ++ (SegCall.frame f).frames)) ∨
         ((∃ e, r = .err e) ∧ g.Between head t' s' acc ∧ ∃ f', SegCall.frame f = .frame f' ∧ g.Refuses t f'))) := by
      intro e hr hcase
      refine ⟨_, _, _, rfl, .inr ⟨t, rfl, ⟨hsound, ?_, fun hcn => ?_⟩, .inr ⟨⟨_, rfl⟩, h, f, rfl, hr⟩⟩⟩
      · unfold Seg.waitTimes at hwt
        split at hwt
        · exact hwt.sublist (List.Sublist.append (List.Sublist.refl _) (List.sublist_cons_self _ _))
        · exact hwt
      · have h0 := hst hcn
        have hkn : g.knows f = false := by
          rcases hcase with hk | hk
          · exact hk
          · rcases h.state with ⟨-, -, hl⟩ | ⟨ps, ws, c, o, -⟩
            · omega
            · rw [o.cur] at hcn; cases hcn
        unfold Seg.opening at h0
        rw [if_pos (by simp [hkn])] at h0
        exact h0
    by_cases hlast : f.timestamp < t.lastTs
    · rw [if_pos hlast]
      exact hkeep (.inl hlast) (.inr hlast)
    rw [if_neg hlast]
    cases hby : g.tracks.byNumber f.trackNumber with
    | none =>
      have hk : g.knows f = false := by simp [Seg.knows, hby]
      exact hkeep (.inr (.inl hk)) (.inl hk)
    | some e =>
      have hk : g.knows f = true := by simp [Seg.knows, hby]
      obtain ⟨n1, n2⟩ := hn.frame hby
      simp only
      rw [M.bind_of_ok (Seg.note_discard hg t f s)]
      have hle : ∀ c, t.cur = some c → c.timecode ≤ f.timestamp / g.info.scale := by
        intro c hc
        rcases h.state with ⟨hf, -⟩ | ⟨ps, ws, c', o, -, -, h3, -⟩
        · rw [hf.cur] at hc; cases hc
        · rw [o.cur] at hc; cases hc
          exact Nat.le_trans h3 (Nat.div_le_div_right (by omega))
      obtain ⟨b, hb, hb1, hb2, hnear⟩ := noteFar_run g t f s hs.fine.2 hle
      rw [M.bind_of_ok hb, M.get_bind]
      have hqs : g.queues f = (g.hasVideo && e.kind == .audio) := by simp [Seg.queues, hby]
      have hcond : ((g.put { t with forceNew := b }).hasVideo && e.kind == .audio &&
          !(g.put { t with forceNew := b }).forceNew) = (g.queues f && !b) := by rw [hqs]; rfl
      rw [hcond]
      by_cases hq : (g.queues f && !b) = true
      · -- the frame waits
        rw [if_pos hq]
        simp only [Bool.and_eq_true, Bool.not_eq_true'] at hq
        obtain ⟨hq, rfl⟩ := hq
        have hfn : t.forceNew = false := by
          cases hfn : t.forceNew
          · rfl
          · exact absurd (hb2 hfn) (by decide)
        unfold Seg.queueFrame
        rw [if_neg (by unfold kMaxTrackNumber; omega)]
        obtain ⟨cp1, cp2, ⟨cp3, cp4⟩, cp5⟩ := copy_same hs.additional
        unfold Seg.waitTimes at hwt
        rw [if_pos hq] at hwt
        have hval : f.copy.isValid = true := by rw [cp2]; exact sound_valid hs ⟨n1, n2⟩ (hs.reference hq)
        have hfine : g.Fine f.copy := fine_copy hs.additional hs.fine
        let t2 : SegSt := { t with forceNew := false, queue := t.queue ++ [f.copy], queueUsed := true }
        refine ⟨_, _, s, rfl, .inr ⟨t2, rfl, ⟨hsound, ?_, fun hcn => ?_⟩, .inl ⟨rfl, ?_⟩⟩⟩
        · show ((t.queue ++ [f.copy]).map Frame.timestamp ++ _).Pairwise _
          rw [List.map_append, List.append_assoc]
          simpa [cp5] using hwt
        · have h0 := hst hcn
          unfold Seg.opening at h0
          rw [if_neg (by simp [hk]), if_pos (by simp [hq, hfn]), hfn] at h0
          show Span _ ((t.queue ++ [f.copy]).map Frame.timestamp ++ _)
          rw [List.map_append, List.append_assoc]
          simpa [cp5] using h0
        · refine ⟨fun _ => rfl, ?_, ?_, ?_, ?_, ?_, ?_⟩
          · show (t.queue ++ [f.copy]).Pairwise _
            refine List.pairwise_append.mpr ⟨h.sorted, by simp, ?_⟩
            intro a ha y hy
            rw [List.mem_singleton.mp hy, cp5]
            exact pairwise_le_mid hwt _ (List.mem_map_of_mem ha)
          · intro y hy
            rcases List.mem_append.mp hy with hy | hy
            · exact h.fine y hy
            · rw [List.mem_singleton.mp hy]; exact ⟨hval, hfine⟩
          · intro y hy
            rcases List.mem_append.mp hy with hy | hy
            · exact h.held y hy
            · rw [List.mem_singleton.mp hy]
              unfold Seg.queues; rw [cp1.track]; exact hq
          · exact fun b hb => h.last b fun y hy => hb y (by simp [hy])
          · intro b hb
            simp only [SegCall.frames, List.getLast?_concat] at hb
            cases hb
            exact .inr ⟨f.copy, by simp [t2], by rw [cp5]; exact Nat.le_refl _⟩
          · rcases h.state with ⟨hf, hacc, hl⟩ | ⟨ps, ws, c, o, h1, h2, h3, h4⟩
            · exact .inl ⟨⟨hf.1, hf.2, hf.3, hf.4, hf.5, hf.6, hf.7, hf.8⟩,
                hacc.append (.cons cp1 .nil), hl⟩
            · refine .inr ⟨ps, ws, c, o.congr rfl rfl rfl rfl, h1, ?_, h3, ?_⟩
              · show CarriedAll _ (_ ++ (t.queue ++ [f.copy]))
                rw [← List.append_assoc]
                exact h2.append (.cons cp1 .nil)
              · intro y hy
                rcases List.mem_append.mp hy with hy | hy
                · exact h4 y hy
                · rw [List.mem_singleton.mp hy]
                  refine ⟨hval, hfine, hg.scale, ?_⟩
                  rw [cp5]
                  exact hnear rfl c o.cur
      · rw [if_neg hq]
        have hbtw : g.Between head { t with forceNew := b } s acc := by
          refine ⟨h.used, h.sorted, h.fine, h.held, h.last, h.seen, ?_⟩
          rcases h.state with ⟨hf, hacc, hl⟩ | ⟨ps, ws, c, o, h1, h2, h3, h4⟩
          · exact .inl ⟨⟨hf.1, hf.2, hf.3, hf.4, hf.5, hf.6, hf.7, hf.8⟩, hacc, hl⟩
          · exact .inr ⟨ps, ws, c, o.congr rfl rfl rfl rfl, h1, h2, h3, h4⟩
        have hrest : ∀ t' : SegSt, t'.cur ≠ none → t'.queue = [] → g.Orderly t' rest := by
          intro t' h1 h2
          refine ⟨hsound, ?_, fun hc => absurd hc h1⟩
          rw [h2]
          have hw2 := (List.pairwise_append.mp hwt).2.1
          unfold Seg.waitTimes at hw2
          split at hw2
          · exact (List.pairwise_cons.mp hw2).2
          · exact hw2
        rcases doNewCluster_one (ts := f.timestamp) hg e.kind f.isKey 3 hbtw hnear hs.fine.2 (by exact Nat.le_of_not_lt hlast)
          (by
            intro hcn
            have h0 := hst hcn
            have hbf := hb1 hcn
            unfold Seg.opening at h0
            rw [if_neg (by simp [hk]), if_neg (by rw [← hbf]; exact hq)] at h0
            exact h0) with ⟨t1, s1, e1, ch⟩ | ⟨e', g', s', e1, hbig⟩
        · rw [M.bind_of_ok e1]
          obtain ⟨r, t2, s2, e2, c2, q2, -, hc⟩ := writeDirect_chosen hg ch hs ⟨n1, n2⟩
          refine ⟨r, _, s2, e2, .inr ⟨t2, rfl, hrest t2 c2 q2, ?_⟩⟩
          rcases hc with ⟨a, b⟩ | ⟨a, b, c⟩
          · exact .inl ⟨a, b⟩
          · exact .inr ⟨a, b, f, rfl, .inr (.inr c)⟩
        · rw [M.bind_of_err e1]
          exact ⟨_, _, _, rfl, .inl hbig⟩

theorem run_cons {x : SegCall} {xs : List SegCall} {g g' : Seg} {s s' : Sink} {r : Res Unit}
    (h : Seg.call x g s = (r, g', s')) :
    Seg.run (x :: xs) g s = (r :: (Seg.run xs g' s').1, (Seg.run xs g' s').2) := by
  simp only [Seg.run, h]

theorem _root_.Verif.Spec.CarriedAll.split {acc b c : List Frame} (h : CarriedAll acc (b ++ c)) :
    ∃ x y, acc = x ++ y ∧ CarriedAll x b ∧ CarriedAll y c := by
  induction b generalizing acc with
  | nil => exact ⟨[], acc, rfl, .nil, h⟩
  | cons f b ih =>
    cases h with
    | cons hf hr =>
      obtain ⟨x, y, e, h1, h2⟩ := ih hr
      exact ⟨_ :: x, y, by rw [e]; rfl, .cons hf h1, h2⟩

theorem _root_.Verif.Spec.CarriedAll.queues {g : Seg} {a b : List Frame} (h : CarriedAll a b)
    (hb : ∀ f ∈ b, g.queues f = true) : ∀ f ∈ a, g.queues f = true := by
  induction h with
  | nil => simp
  | cons h _ ih =>
    intro f hf
    rcases List.mem_cons.mp hf with rfl | hf
    · have := hb _ List.mem_cons_self
      unfold Seg.queues at this ⊢; rw [← h.track]; exact this
    · exact ih (fun x hx => hb x (by simp [hx])) f hf

theorem Seg.Between.refused {g : Seg} {head : Bytes} {t : SegSt} {s : Sink} {acc : List Frame}
    (h : g.Between head t s acc) {f : Frame} (hr : g.Refuses t f) : g.RefusedAfter acc f := by
  rcases hr with hr | hr | ⟨w, hw, hlt⟩
  · refine .inr (.inl ?_)
    refine Classical.byContradiction fun hc => ?_
    have := h.last f.timestamp fun a ha => Nat.le_of_not_lt fun hl => hc ⟨a, ha, hl⟩
    omega
  · exact .inl hr
  · have hsplit : ∃ x y, acc = x ++ y ∧ CarriedAll y t.queue := by
      rcases h.state with ⟨-, hacc, -⟩ | ⟨ps, ws, c, -, -, hacc, -⟩
      · exact ⟨[], acc, rfl, hacc⟩
      · obtain ⟨x, y, e, -, h2⟩ := hacc.split
        exact ⟨x, y, e, h2⟩
    obtain ⟨x, y, e, hy⟩ := hsplit
    obtain ⟨a, ha, hat⟩ := hy.mem w hw
    exact .inr (.inr ⟨x, y, e, hy.queues h.held, a, ha, by rw [hat]; exact hlt⟩)

/-- Every prefix of the history leaves a file that is not too long. -/
def SmallRun (xs : List SegCall) (g : Seg) (s : Sink) : Prop :=
  ∀ n, (Seg.run (xs.take n) g s).2.2.data.length + 1 < 2 ^ 56

theorem SmallRun.first {x : SegCall} {xs : List SegCall} {g g' : Seg} {s s' : Sink} {r : Res Unit}
    (h : SmallRun (x :: xs) g s) (hc : Seg.call x g s = (r, g', s')) : s'.data.length + 1 < 2 ^ 56 := by
  have := h 1
  rw [List.take_succ_cons, run_cons hc] at this
  simpa [Seg.run] using this

theorem SmallRun.rest {x : SegCall} {xs : List SegCall} {g g' : Seg} {s s' : Sink} {r : Res Unit}
    (h : SmallRun (x :: xs) g s) (hc : Seg.call x g s = (r, g', s')) : SmallRun xs g' s' := by
  intro n
  have := h (n + 1)
  rw [List.take_succ_cons, run_cons hc] at this
  exact this

/-- A history of calls on a segment whose header is written. -/
theorem run_ready {g : Seg} {head : Bytes} (hg : g.Ready head) (hn : g.Numbered) :
    ∀ {xs : List SegCall} {t : SegSt} {s : Sink} {acc : List Frame} (_ : g.Between head t s acc)
      (_ : g.Orderly t xs) (_ : SmallRun xs (g.put t) s),
    ∃ rs t' s', Seg.run xs (g.put t) s = (rs, g.put t', s') ∧ Outcomes g acc xs rs ∧
      g.Between head t' s' (acc ++ acceptedFrames xs rs) := by
  intro xs
  induction xs with
  | nil =>
    intro t s acc h _ _
    exact ⟨[], t, s, rfl, trivial, by simpa [acceptedFrames] using h⟩
  | cons x xs ih =>
    intro t s acc h ho hsm
    obtain ⟨r, g', s', e, hc⟩ := call_step hg hn h ho
    have hb := hsm.first e
    have hr := hsm.rest e
    rcases hc with hc | ⟨t', rfl, ho', hc⟩
    · omega
    rcases hc with ⟨rfl, hbt⟩ | ⟨⟨c, rfl⟩, hbt, f, hxf, href⟩
    · obtain ⟨rs, t2, s2, e2, o2, b2⟩ := ih hbt ho' hr
      refine ⟨.ok () :: rs, t2, s2, ?_, .inl ⟨rfl, o2⟩, ?_⟩
      · rw [run_cons e, e2]
      · simpa [acceptedFrames] using b2
    · obtain ⟨rs, t2, s2, e2, o2, b2⟩ := ih hbt ho' hr
      refine ⟨.err c :: rs, t2, s2, ?_, .inr ⟨⟨c, rfl⟩, ⟨f, hxf, h.refused href⟩, o2⟩, ?_⟩
      · rw [run_cons e, e2]
      · simpa [acceptedFrames] using b2

end Verif.Mux
