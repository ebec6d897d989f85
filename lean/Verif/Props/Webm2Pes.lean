/-
C81: from a WebM file to a packetized elementary stream or a transport stream.
-/
import Verif.Lemmas.Webm2Pes
import Verif.Props.Ticks
import Verif.Props.Watching
import Verif.Props.EbmlHeader

namespace Verif.Props
open Verif Verif.Par Verif.Mux Spec Verif.Pes

/-- The name of the codec. -/
def vpxName (vp9 : Bool) : Bytes := if vp9 then "V_VP9".toUTF8.toList else "V_VP8".toUTF8.toList

/-- What is to be sent of the frames that mkvparser shows: those of track `n`, in order, each with its time, given in units of
`scale` nanoseconds, in ticks of 1/90000 s (see C82). -/
def sentFrames (n : Nat) (vp9 : Bool) (scale : Int) (fs : List SeenFrame) : List TsFrame :=
  (fs.filter (·.track = n)).map fun s => ⟨vp9, s.data, (Ticks.nanosecondsTo90KhzTicks (s.time * scale)).toNat⟩

private theorem ticks_nat {x : Int} (h : 0 ≤ x) :
    (((Ticks.nanosecondsTo90KhzTicks x).toNat : Nat) : Int) = Ticks.nanosecondsTo90KhzTicks x := by
  have := (C82_order h).1
  rw [show Ticks.nanosecondsTo90KhzTicks 0 = 0 by decide +kernel] at this
  omega

private theorem many_pes {n : Nat} {vp9 : Bool} {k : Int} (hk : 0 < k) : ∀ (fs : List SeenFrame) (out : Bytes), (∀ s ∈ fs, Timed n k s) →
    convertMany (fun out packet => some (out ++ packet)) n vp9 k fs out =
      match pesStream (sentFrames n vp9 k fs) with
      | some b => .ok (out ++ b)
      | none => .err (-1)
  | [], out, _ => by simp [convertMany, sentFrames, pesStream]
  | s :: fs, out, h => by
    have ih := fun out => many_pes hk (vp9 := vp9) fs out (fun s hs => h s (by simp [hs]))
    rw [convertMany, convertOne]
    by_cases hn : s.track = n
    · have ht := ticks_nat (Int.mul_nonneg ((h s (by simp)).time hn) (Int.le_of_lt hk))
      rw [if_pos hn]
      have e : sentFrames n vp9 k (s :: fs) =
          ⟨vp9, s.data, (Ticks.nanosecondsTo90KhzTicks (s.time * k)).toNat⟩ :: sentFrames n vp9 k fs := by
        unfold sentFrames
        rw [List.filter_cons, if_pos (by simpa using hn), List.map_cons]
      rw [e, pesStream]
      simp only
      rw [ht]
      cases writePesPacket vp9 s.data (Ticks.nanosecondsTo90KhzTicks (s.time * k)) with
      | none => rfl
      | some a =>
        simp only [Res.bind_ok, Option.bind_eq_bind, Option.bind_some]
        rw [ih]
        cases pesStream (sentFrames n vp9 k fs) with
        | none => rfl
        | some b => simp
    · rw [if_neg hn, Res.bind_ok, ih]
      have e : sentFrames n vp9 k (s :: fs) = sentFrames n vp9 k fs := by
        unfold sentFrames
        rw [List.filter_cons, if_neg (by simpa using hn)]
      rw [e]

private theorem find_video {before after : List ReadTrack} {t : ReadTrack} {vp9 : Bool} (hb : ∀ x ∈ before, x.info.type ≠ 1)
    (ht : t.info.type = 1) (hc : t.info.codecId = some (vpxName vp9)) : ∀ i : Nat,
    findVideo (before ++ t :: after) i = .ok (i + before.length + 1, vp9) := by
  induction before with
  | nil =>
    intro i
    rw [List.nil_append, findVideo, if_pos ht, hc]
    cases vp9
    · have e1 : Vtt.cText ((some (vpxName false)).getD []) = [0x56, 0x5F, 0x56, 0x50, 0x38] := by decide +kernel
      simp only [e1, if_true]
      rfl
    · have e1 : Vtt.cText ((some (vpxName true)).getD []) = [0x56, 0x5F, 0x56, 0x50, 0x39] := by decide +kernel
      simp only [e1]
      rfl
  | cons x before ih =>
    intro i
    rw [List.cons_append, findVideo, if_neg (hb x (by simp)), ih (fun y hy => hb y (by simp [hy])), List.length_cons]
    congr 2
    omega

/-- **C81, any file.** Whatever the file is: if mkvparser loads it and shows the frames `fs`, the first video track is the one
behind `before` and is VP8 or VP9, and the times are not negative and below 2⁶³ ns, then the stream that is written is that of
the frames of the track *with the number one more than the index of the video track*; the conversion fails exactly if one of
these frames is refused (see C43). -/
theorem C81_any_file {r : Rdr} {file : Bytes} (ho : Opened r file) {fuel : Nat} (hf : file.length < fuel)
    {g g' : ReadSegment} (hc : createInstance r 0 = .ok g) (hl : g.load r fuel = (g', .ok ()))
    {before after : List ReadTrack} {t : ReadTrack} {vp9 : Bool} {info : ReadInfo} (ht : g'.tracks = some (before ++ t :: after))
    (hi : g'.info = some info) (hk : 0 < info.timecodeScale) {fs : List SeenFrame} (hw : watch r fuel g' = .ok fs)
    (hb : ∀ x ∈ before, x.info.type ≠ 1) (hv : t.info.type = 1) (hcodec : t.info.codecId = some (vpxName vp9))
    (htimes : ∀ s ∈ fs, s.track = before.length + 1 → 0 ≤ s.time ∧ s.time * info.timecodeScale < 2 ^ 63) :
    webm2pes r fuel = match pesStream (sentFrames (before.length + 1) vp9 info.timecodeScale fs) with
      | some out => .ok out
      | none => .err (-1) := by
  have hu : ∀ s ∈ fs, Timed (before.length + 1) info.timecodeScale s :=
    fun s hs => ⟨fun h => (htimes s hs h).1, fun h => (htimes s hs h).2⟩
  have hfind := find_video (after := after) hb hv hcodec 0
  rw [Nat.zero_add] at hfind
  unfold webm2pes
  rw [convert_ok ho hf hc hl ht hi hk hw hfind hu, many_pes hk fs [] hu]
  rfl

/-! ### The transport stream -/

/-- Handing packets to a receiver one after the other. -/
private def feed {σ : Type} (receive : σ → Bytes → Option σ) : List Bytes → σ → Option σ
  | [], st => some st
  | p :: ps, st => receive st p >>= feed receive ps

private theorem feed_cons {σ : Type} {receive : σ → Bytes → Option σ} {p : Bytes} {st st' : σ} (h : receive st p = some st')
    (ps : List Bytes) : feed receive (p :: ps) st = feed receive ps st' := by
  rw [feed, h]
  rfl

private theorem feed_append {σ : Type} (receive : σ → Bytes → Option σ) : ∀ (ps qs : List Bytes) (st : σ),
    feed receive (ps ++ qs) st = feed receive ps st >>= feed receive qs
  | [], _, _ => rfl
  | p :: ps, qs, st => by
    rw [List.cons_append, feed, feed]
    cases receive st p with
    | none => rfl
    | some st => exact feed_append receive ps qs st

/-- The packets a program sends do not depend on who receives them. -/
private def Same (F : ∀ σ : Type, (σ → Bytes → Option σ) → σ → Res σ) : Prop :=
  ∀ (σ : Type) (receive : σ → Bytes → Option σ) (st st' : σ), F σ receive st = .ok st' →
    ∃ ps, feed receive ps st = some st' ∧
      ∀ (τ : Type) (receive' : τ → Bytes → Option τ) (u u' : τ), feed receive' ps u = some u' → F τ receive' u = .ok u'

private theorem Same.done : Same fun _ _ st => .ok st := by
  intro σ receive st st' h
  cases h
  exact ⟨[], rfl, fun τ receive' u u' h => by cases h; rfl⟩

private theorem Same.seq {F G : ∀ σ : Type, (σ → Bytes → Option σ) → σ → Res σ} (hF : Same F) (hG : Same G) :
    Same fun σ receive st => F σ receive st >>= G σ receive := by
  intro σ receive st st' h
  obtain ⟨m, h1, h2⟩ := Res.bind_eq_ok.mp h
  obtain ⟨ps, p1, p2⟩ := hF σ receive st m h1
  obtain ⟨qs, q1, q2⟩ := hG σ receive m st' h2
  refine ⟨ps ++ qs, by rw [feed_append, p1]; exact q1, fun τ receive' u u' hu => ?_⟩
  rw [feed_append] at hu
  obtain ⟨v, v1, v2⟩ := Option.bind_eq_some_iff.mp hu
  exact Res.bind_eq_ok.mpr ⟨v, p2 τ receive' u v v1, q2 τ receive' v u' v2⟩

private theorem Same.const {α : Type} {x : Res α} {F : α → ∀ σ : Type, (σ → Bytes → Option σ) → σ → Res σ} (h : ∀ a, x = .ok a → Same (F a)) :
    Same fun σ receive st => x >>= fun a => F a σ receive st := by
  cases x with
  | ok a => exact h a rfl
  | err c => intro σ receive st st' h; cases h
  | ub => intro σ receive st st' h; cases h

private theorem Same.none {x : ∀ σ : Type, Res σ} (h : ∀ σ st, x σ ≠ .ok st) : Same fun σ _ _ => x σ := by
  intro σ receive st st' h'
  exact absurd h' (h σ st')

private theorem same_frames (r : Rdr) (vp9 : Bool) (scale tc : Int) (b : Block) : ∀ fs : List BFrame,
    Same fun _ receive st => convertFrames receive r vp9 scale tc b fs st
  | [] => Same.done
  | f :: fs => by
    unfold convertFrames
    refine Same.const fun time _ => Same.const fun _ _ => ?_
    cases f.read r with
    | error _ => exact Same.none fun _ _ h => by cases h
    | ok data =>
      simp only
      cases writePesPacket vp9 data (Ticks.nanosecondsTo90KhzTicks time) with
      | none => exact Same.none fun _ _ h => by cases h
      | some packet =>
        intro σ receive st st' h
        simp only at h
        cases hp : receive st packet with
        | none => rw [hp] at h; cases h
        | some m =>
          rw [hp] at h
          obtain ⟨ps, p1, p2⟩ := same_frames r vp9 scale tc b fs σ receive m st' h
          refine ⟨packet :: ps, by rw [feed, hp]; exact p1, fun τ receive' u u' hu => ?_⟩
          rw [feed] at hu
          obtain ⟨v, v1, v2⟩ := Option.bind_eq_some_iff.mp hu
          simp only
          rw [v1]
          exact p2 τ receive' v u' v2

private theorem same_entry (r : Rdr) (n : Nat) (vp9 : Bool) (scale tc : Int) (e : Entry) :
    Same fun _ receive st => convertEntry receive r n vp9 scale tc e st := by
  unfold convertEntry
  by_cases h : e.block.track = n
  · simp only [if_pos h]
    exact same_frames r vp9 scale tc e.block _
  · simp only [if_neg h]
    exact Same.done

private theorem same_from (r : Rdr) (n : Nat) (vp9 : Bool) (scale tc : Int) : ∀ (k : Nat) (c : ReadCluster) (idx : Nat) (e : Entry),
    Same fun _ receive st => convertFrom receive r n vp9 scale tc k c idx e st
  | 0, c, idx, e => Same.none fun _ _ h => by cases h
  | k + 1, c, idx, e => by
    unfold convertFrom
    refine Same.seq (same_entry r n vp9 scale tc e) (G := fun _ receive st => _) ?_
    cases c.getNext r idx with
    | err _ => exact Same.none fun _ _ h => by cases h
    | ub => exact Same.none fun _ _ h => by cases h
    | ok x =>
      obtain ⟨c', e'⟩ := x
      cases e' with
      | none => exact Same.done
      | some e' => exact same_from r n vp9 scale tc k c' (idx + 1) e'

private theorem same_cluster (r : Rdr) (n : Nat) (vp9 : Bool) (scale : Int) (k : Nat) (c : ReadCluster) :
    Same fun _ receive st => convertCluster receive r n vp9 scale k c st := by
  unfold convertCluster
  refine Same.const fun x _ => ?_
  obtain ⟨c', tc⟩ := x
  simp only
  cases c'.getFirst r with
  | err _ => exact Same.none fun _ _ h => by cases h
  | ub => exact Same.none fun _ _ h => by cases h
  | ok x =>
    obtain ⟨c', e'⟩ := x
    cases e' with
    | none => exact Same.done
    | some e' => exact same_from r n vp9 scale tc k c' 0 e'

private theorem same_clusters (r : Rdr) (n : Nat) (vp9 : Bool) (scale : Int) (g : ReadSegment) (rounds : Nat) : ∀ (k : Nat) (idx : Option Nat),
    Same fun _ receive st => convertClusters receive r n vp9 scale g rounds k idx st
  | k, none => by
    have : (fun (σ : Type) (receive : σ → Bytes → Option σ) (st : σ) => convertClusters receive r n vp9 scale g rounds k none st) =
        fun _ _ st => .ok st := by
      funext σ receive st
      cases k <;> rfl
    rw [this]
    exact Same.done
  | 0, some _ => Same.none fun _ _ h => by cases h
  | k + 1, some idx => by
    unfold convertClusters
    cases g.clusters[idx]? with
    | none => exact Same.none fun _ _ h => by cases h
    | some c => exact Same.seq (same_cluster r n vp9 scale rounds c) (same_clusters r n vp9 scale g rounds k (g.getNext idx))

private theorem same_convert (r : Rdr) (fuel : Nat) : Same fun _ receive st => convert receive r fuel st := by
  unfold convert
  cases createInstance r 0 with
  | err _ => exact Same.none fun _ _ h => by cases h
  | ub => exact Same.none fun _ _ h => by cases h
  | ok g =>
    simp only
    rcases g.load r fuel with ⟨g', x⟩
    cases x with
    | err _ => exact Same.none fun _ _ h => by cases h
    | ub => exact Same.none fun _ _ h => by cases h
    | ok _ =>
      simp only
      cases g'.tracks with
      | none => exact Same.none fun _ _ h => by cases h
      | some ts =>
        cases g'.info with
        | none => exact Same.none fun _ _ h => by cases h
        | some i =>
          simp only
          refine Same.const fun x _ => ?_
          exact same_clusters r x.1 x.2 i.timecodeScale g' fuel fuel g'.getFirst

private theorem feed_pes : ∀ (ps : List Bytes) (out out' : Bytes), feed (fun out packet => some (out ++ packet)) ps out = some out' →
    out' = out ++ ps.flatten
  | [], out, out', h => by cases h; simp
  | p :: ps, out, out', h => by
    have := feed_pes ps (out ++ p) out' h
    rw [this]
    simp

private theorem feed_ts : ∀ (ps : List Bytes) (out : List Bytes), ps.flatten.length < 2 ^ 31 →
    ∃ (pkts : List Bytes) (vs : List TsView), feed receiveTs ps out = some (out ++ pkts) ∧ pkts.map tsView = vs.map some ∧
      (vs.map TsView.payload).flatten = ps.flatten ∧ ∀ v ∈ vs, v.pid = 0x20
  | [], out, _ => ⟨[], [], by simp [feed]⟩
  | p :: ps, out, h => by
    rw [List.flatten_cons, List.length_append] at h
    obtain ⟨pkts, vs, h1, h2, h3, -, -, -, h4, h5⟩ := C41_transport_packets (fun _ => true) p (by omega)
    have ht := h4.mpr (fun _ _ => rfl)
    have he := h5 ht
    obtain ⟨pkts', vs', i1, i2, i3, i4⟩ := feed_ts ps (out ++ pkts) (by omega)
    refine ⟨pkts ++ pkts', vs ++ vs', ?_, by simp [h1, i2], by simp [h2, i3], ?_⟩
    · have hstep : receiveTs out p = some (out ++ pkts) := by
        unfold receiveTs
        rw [if_pos ht, he]
      rw [feed_cons hstep, i1, List.append_assoc]
    · intro v hv
      rcases List.mem_append.mp hv with hv | hv
      · exact h3 v hv
      · exact i4 v hv

/-- **C81, transport stream.** Whatever the file is, also a damaged one: when the conversion to an elementary stream succeeds with
less than 2 GiB, so does the conversion to a transport stream, and a receiver that puts the payloads of its packets together
gets exactly the elementary stream. -/
theorem C81_transport {r : Rdr} {fuel : Nat} {out : Bytes} (h : webm2pes r fuel = .ok out) (hlen : out.length < 2 ^ 31) :
    ∃ (pkts : List Bytes) (vs : List TsView), webm2ts r fuel = .ok pkts ∧ pkts.map tsView = vs.map some ∧
      (vs.map TsView.payload).flatten = out ∧ ∀ v ∈ vs, v.pid = 0x20 := by
  obtain ⟨ps, h1, h2⟩ := same_convert r fuel _ _ _ _ h
  have e := feed_pes ps _ _ h1
  rw [List.nil_append] at e
  subst e
  obtain ⟨pkts, vs, f1, f2, f3, f4⟩ := feed_ts ps [] hlen
  rw [List.nil_append] at f1
  refine ⟨pkts, vs, ?_, f2, f3, f4⟩
  unfold webm2ts
  exact h2 (List Bytes) _ [] pkts f1

/-! ### Recordings -/

private theorem createLoop_mono {r : Rdr} {g : ReadSegment} : ∀ {f F p : Nat}, f ≤ F → createLoop r f p = .ok g → createLoop r F p = .ok g
  | 0, F, p, _, h => by
    unfold createLoop at h
    split at h <;> cases h
  | f + 1, 0, p, hF, h => by omega
  | f + 1, F + 1, p, hF, h => by
    rw [createLoop] at h ⊢
    obtain ⟨_, h1, h⟩ := Res.bind_eq_ok.mp h
    obtain ⟨_, h2, h⟩ := Res.bind_eq_ok.mp h
    obtain ⟨_, h3, h⟩ := Res.bind_eq_ok.mp h
    obtain ⟨_, h4, h⟩ := Res.bind_eq_ok.mp h
    obtain ⟨_, h5, h⟩ := Res.bind_eq_ok.mp h
    simp only at h4 h5 h
    rw [h1, Res.bind_ok, h2, Res.bind_ok, h3, Res.bind_ok]
    dsimp only
    rw [h4, Res.bind_ok, h5, Res.bind_ok]
    split at h
    · rename_i hid
      rw [if_pos hid]
      exact h
    · rename_i hid
      rw [if_neg hid]
      obtain ⟨_, h6, h⟩ := Res.bind_eq_ok.mp h
      obtain ⟨_, h7, h⟩ := Res.bind_eq_ok.mp h
      obtain ⟨_, h8, h⟩ := Res.bind_eq_ok.mp h
      rw [h6, Res.bind_ok, h7, Res.bind_ok, h8, Res.bind_ok]
      exact createLoop_mono (by omega) h

/-- `CreateInstance` at the start of the file skips an element before the segment. -/
private theorem createInstance_skip {r : Rdr} (hw : r.Whole) {id n : Nat} {payload : Bytes} (hid : IsId n id) (hne : id ≠ kMkvSegment)
    (hsz : payload.length + 1 < 2 ^ 56) (hat : At r.data 0 (element id payload)) {g : ReadSegment}
    (hc : createInstance r (element id payload).length = .ok g) : createInstance r 0 = .ok g := by
  have he := elemAt hid hsz hat
  have hr := hw.sane
  have hh := he.head
  have hle := he.le
  have hlen := he.len
  have hm := he.m1
  have hfit := he.fits
  unfold createInstance at hc ⊢
  obtain ⟨_, h1, hc⟩ := Res.bind_eq_ok.mp hc
  rw [h1, Res.bind_ok, show r.data.length + 1 - 0 = r.data.length + 1 by omega, createLoop]
  unfold Rdr.Whole at hw
  rw [Res.refuse_neg (by unfold atEnd; simp; have := hid.1; omega), Res.bind_ok, hh.create1 hr, Res.bind_ok, hh.readId]
  simp only [Res.orErr_ok, Res.bind_ok]
  rw [hh.create2 hr, Res.bind_ok, hh.readSize]
  simp only [Res.bind_ok]
  rw [if_neg hne, Res.refuse_neg (by unfold Par.unknownSize; omega), Res.bind_ok,
    Res.refuse_neg (by rw [beyond_neg hr (by omega)]; decide), Res.bind_ok, Res.refuse_neg (by omega), Res.bind_ok]
  rw [hlen] at hc
  rw [show 0 + n + sizeWidth payload.length + payload.length = n + sizeWidth payload.length + payload.length by omega]
  exact createLoop_mono (f := r.data.length + 1 - (n + sizeWidth payload.length + payload.length)) (by omega) hc

/-- **C81, recordings, partial.** A recording made with the muxer and converted: for all settings, tracks and frames within the limits
of `C65_recording_partial`, when the first video track is VP8 or VP9 and its number is one more than its index (as it is if
the muxer chose the numbers), and the timestamps of its frames are below 2⁶³ ns, the stream that is written is that of the
accepted frames of this track, in order, with their times rounded down to the timecode scale.

Missing: what is missing in C65; without the condition on the number it is false (`C81_wrong_track`). -/
theorem C81_recording_partial {g : Seg} {muxing writing : Bytes} {ts : List Track} {ch : Option (List Chapter)}
    {tg : Option (List Tag)}
    (hg : g.Settings muxing writing (tracksTree ts).bytes (ch.map fun c => (chaptersTree c).bytes)
      (tg.map fun t => (tagsTree t).bytes)) (hu : g.Unused) (hn : g.Numbered)
    (hacc : g.accurate = false) (hl : g.live = false)
    (hroom : g.Room (ch.map fun c => (chaptersTree c).bytes) (tg.map fun t => (tagsTree t).bytes))
    {xs : List SegCall} (hxs : g.WellFed xs) (hr : ∀ f, .frame f ∈ xs → f.Showable g.info.scale)
    {s : Sink} (hd : s.data = []) (hp : s.pos = 0) (hs : s.Sure)
    {rs : List (Res Unit)} {g1 g2 : Seg} {s1 s2 : Sink} {r : Res Unit} {d : Option Nat} {du : Option UInt32}
    (hrun : Seg.run xs g s = (rs, g1, s1)) (hfin : Seg.finalize d g1 s1 = (r, g2, s2))
    (hsm : s2.data.length < 2 ^ 48) (hw : ∃ f ∈ acceptedFrames xs rs, g.queues f = false)
    (hdu : g.lastDuration d = du.map UInt32.toNat) (hv : Viewable g.docType g.info.scale du muxing writing ts ch tg)
    {before after : List Track} {t : Track} {vp9 : Bool} (hts : ts = before ++ t :: after) (hb : ∀ x ∈ before, x.type ≠ 1)
    (ht : t.type = 1) (hcodec : t.codecId = some (vpxName vp9)) (hnumber : t.number.toNat = before.length + 1)
    (htimes : ∀ f ∈ acceptedFrames xs rs, f.trackNumber = t.number.toNat → f.timestamp < 2 ^ 63)
    {reader : Rdr} (ho : Opened reader s2.data) {fuel : Nat} (hfuel : s2.data.length < fuel) :
    webm2pes reader fuel =
      match pesStream (((acceptedFrames xs rs).filter (·.trackNumber = t.number.toNat)).map fun f =>
        ⟨vp9, f.frame, (Ticks.nanosecondsTo90KhzTicks (f.timestamp / g.info.scale * g.info.scale : Nat)).toNat⟩) with
      | some out => .ok out
      | none => .err (-1) := by
  obtain ⟨-, hwatch⟩ := C65_recording_partial hg hu hn hacc hl hroom hxs hr hd hp hs hrun hfin hsm hw hdu hv
  obtain ⟨-, -, p, -, hfile, -⟩ := whole_file hg hu hn hacc hl hroom hxs hd hp hs hrun hfin hsm hw
  obtain ⟨pos, head, y, y', h1, -, h2, h3, h4, h5, -, -, h6⟩ := hwatch reader ho.data ho.total fuel hfuel
  have hwh : reader.Whole := by unfold Rdr.Whole; rw [ho.total, ho.data]
  have hform : reader.data = [] ++ (ebmlHeader g.docType 4 ++ (segmentId ++
      ((if g.seekable then vint 8 p.payload.length else sizeUnknown) ++ p.payload))) := by
    rw [ho.data, hfile]; rfl
  have hpos := C25_round_trip (v := 4) (by decide) (by decide) hv.docType.1 hv.docType.2 hform (by decide) (by intro b hb; cases hb)
    (.inr (by rw [ho.total, ho.data])) (by rw [ho.data]; unfold llongMax; omega)
  rw [hpos] at h1
  cases h1
  have hsmall := ebmlHeaderPayload_small (d := g.docType) (v := 4) (by decide) (by have := hv.docType.2; omega)
  have hc : createInstance reader 0 = .ok y := by
    refine createInstance_skip hwh (id := 0x1A45DFA3) (n := 4) (payload := ebmlHeaderPayload g.docType 4) ebml_isId.1 (by decide) ?_ ?_ ?_
    · omega
    · exact At.of_eq (pre := []) hform
    · rw [List.length_nil, Nat.zero_add] at h2
      exact h2
  have hscale : 0 < g.info.scale := hg.scale.1
  have hnum : before.length + 1 = t.number.toNat := hnumber.symm
  have hany := C81_any_file ho hfuel (before := before.map seenTrack) (after := after.map seenTrack) (t := seenTrack t) (vp9 := vp9)
    hc h3 (by rw [h5, hts]; simp [shownAs]) h4 (by show (0 : Int) < (g.info.scale : Int); omega) h6
    (by
      intro x hx
      obtain ⟨x, hx', rfl⟩ := List.mem_map.mp hx
      intro h
      refine hb x hx' (UInt64.toNat_inj.mp ?_)
      have : (x.type.toNat : Int) = 1 := h
      show x.type.toNat = 1
      omega)
    (by show (t.type.toNat : Int) = 1; rw [ht]; rfl) hcodec
    (by
      intro x hx hxn
      obtain ⟨f, hf, rfl⟩ := List.mem_map.mp hx
      rw [List.length_map, hnum] at hxn
      have := htimes f hf hxn
      have h0 := Nat.div_mul_le_self f.timestamp g.info.scale
      refine ⟨?_, ?_⟩
      · show (0 : Int) ≤ ((f.timestamp / g.info.scale : Nat) : Int)
        exact Int.natCast_nonneg _
      · show ((f.timestamp / g.info.scale : Nat) : Int) * (g.info.scale : Int) < 2 ^ 63
        rw [← Int.natCast_mul]
        omega)
  rw [hany, List.length_map, hnum]
  have e : sentFrames t.number.toNat vp9 (shownAs g.docType g.info.scale du muxing writing ts ch tg).info.timecodeScale
      ((acceptedFrames xs rs).map (Frame.asWatched g.info.scale)) =
      ((acceptedFrames xs rs).filter (·.trackNumber = t.number.toNat)).map fun f =>
        ⟨vp9, f.frame, (Ticks.nanosecondsTo90KhzTicks (f.timestamp / g.info.scale * g.info.scale : Nat)).toNat⟩ := by
    unfold sentFrames
    generalize acceptedFrames xs rs = fs
    induction fs with
    | nil => rfl
    | cons f fs ih =>
      rw [List.map_cons, List.filter_cons, List.filter_cons]
      have : (Frame.asWatched g.info.scale f).track = f.trackNumber := rfl
      rw [this]
      split
      · rw [List.map_cons, List.map_cons, ih]
        congr 1
      · exact ih
  rw [e]

/-! ### Examples, and what is false without the conditions -/

def vp8Video : Track := { smallVideo with codecId := some (vpxName false) }

def vp8Seg : Seg := { sampleSeg with seekable := false, tracksW := writeTracks [vp8Video, plainAudio] }

theorem vp8_ok : ∀ t ∈ [vp8Video, plainAudio], TrackOk t := by
  intro t ht
  rcases List.mem_cons.mp ht with rfl | ht
  · refine ⟨by decide, by decide +kernel, fun h => absurd h (by decide +kernel), ?_, ?_⟩
    · intro e he; cases he
    · intro v c hv hc; cases hv; cases hc
  · exact rich_ok t (.tail _ ht)

theorem vp8_set : ∀ t ∈ [vp8Video, plainAudio], TrackSet t := by
  intro t ht
  rcases List.mem_cons.mp ht with rfl | ht
  · refine ⟨by decide, ?_, ?_⟩
    · intro e he; cases he
    · intro v c hv hc; cases hv; cases hc
  · exact rich_set t (.tail _ ht)

theorem vp8_settings : vp8Seg.Settings [0x6D] [0x77] (tracksTree [vp8Video, plainAudio]).bytes
    ((none : Option (List Chapter)).map fun c => (chaptersTree c).bytes)
    ((none : Option (List Tag)).map fun t => (tagsTree t).bytes) :=
  { muxing := ⟨rfl, by decide⟩
    writing := ⟨rfl, by decide⟩
    scale := by decide
    docType := by decide
    version := rfl
    tracks := tracks_puts vp8_ok vp8_set (C60_small_fits (by decide +kernel))
    chapters := trivial
    tags := trivial
    cues := fun _ => .inr (by decide) }

theorem vp8_fed : vp8Seg.WellFed (recordedFrames.map .frame) where
  sound := by
    intro f hf
    simp only [recordedFrames, List.map_cons, List.map_nil, List.mem_cons, List.not_mem_nil, or_false, SegCall.frame.injEq] at hf
    rcases hf with rfl | rfl | rfl | rfl | rfl | rfl <;>
      exact ⟨by decide, by decide, ⟨⟨by decide, by intro a h; cases h; try decide⟩, by decide⟩, by decide⟩
  waiting := by decide
  start := by unfold Span; decide

theorem vp8_viewable : Viewable vp8Seg.docType vp8Seg.info.scale none [0x6D] [0x77] [vp8Video, plainAudio] none none where
  docType := by decide
  info := ⟨by decide, by decide, by decide, fun d hd => by cases hd⟩
  tracks := ⟨C60_small_fits (by decide +kernel), by
    intro t ht
    rcases List.mem_cons.mp ht with rfl | ht
    · refine ⟨by decide, by decide, by decide, ?_, ?_, ?_, ?_, ?_, ?_⟩
      · intro s hs; cases hs; decide +kernel
      · intro s hs; cases hs
      · intro s hs; cases hs
      · intro s hs; cases hs
      · intro e he; cases he
      · refine ⟨rfl, by decide, by decide, by decide, ?_, ?_, ?_, ?_⟩
        · intro b hb; cases hb
        · intro s hs; cases hs
        · intro c hc; cases hc
        · intro q hq; cases hq
    · exact rich_readable t (.tail _ ht)⟩
  numbers := by decide
  chapters := by intro cs h; cases h
  tags := by intro cs h; cases h

theorem vp8_outcome :
    (Seg.run (recordedFrames.map .frame) vp8Seg freshSink).1 = [.ok (), .ok (), .ok (), .ok (), .ok (), .ok ()] := by
  decide +kernel

theorem vp8_small :
    (Seg.finalize none (Seg.run (recordedFrames.map .frame) vp8Seg freshSink).2.1
      (Seg.run (recordedFrames.map .frame) vp8Seg freshSink).2.2).2.2.data.length < 1000 := by decide +kernel

/-- A recording with four video frames and two audio frames: the stream is that of the four video frames, and it carries them. -/
example : ∃ out,
    (let file := (Seg.finalize none (Seg.run (recordedFrames.map .frame) vp8Seg freshSink).2.1
        (Seg.run (recordedFrames.map .frame) vp8Seg freshSink).2.2).2.2.data
     webm2pes { data := file, total := file.length } 1000 = .ok out) ∧
    readAll 9 { data := out } = ([(0, [1]), (2970, [1]), (5940, [1]), (8910, [1])], .err 0) := by
  have h1 := vp8_outcome
  have h2 := vp8_small
  rcases hrun : Seg.run (recordedFrames.map .frame) vp8Seg freshSink with ⟨rs, g1, s1⟩
  rw [hrun] at h1 h2
  simp only at h1 h2
  subst h1
  rcases hfin : Seg.finalize none g1 s1 with ⟨r, g2, s2⟩
  simp only [hfin] at h2 ⊢
  have h := C81_recording_partial (ch := none) (tg := none) (vp9 := false) (before := []) (after := [plainAudio]) vp8_settings
    ⟨rfl, rfl, rfl, rfl, rfl, rfl, rfl, rfl, rfl, rfl⟩
    (by unfold Seg.Numbered; decide) rfl rfl (by unfold Seg.Room; decide) vp8_fed (fun f hf => by
      simp only [recordedFrames, List.map_cons, List.map_nil, List.mem_cons, List.not_mem_nil, or_false, SegCall.frame.injEq] at hf
      rcases hf with rfl | rfl | rfl | rfl | rfl | rfl <;> exact ⟨by decide, by decide⟩) rfl rfl (fun _ => rfl) hrun hfin (by omega)
    ⟨video 0, by decide, by decide⟩ rfl vp8_viewable rfl (by intro x hx; cases hx) rfl rfl (by decide) (by decide)
    (reader := { data := s2.data, total := s2.data.length }) ⟨rfl, rfl, by show (-1 : Int) < 0; decide⟩ (fuel := 1000) h2
  rw [h]
  have e : ∃ out, pesStream (((acceptedFrames (recordedFrames.map .frame) [.ok (), .ok (), .ok (), .ok (), .ok (), .ok ()]).filter
      (·.trackNumber = vp8Video.number.toNat)).map fun f =>
        ⟨false, f.frame, (Ticks.nanosecondsTo90KhzTicks (f.timestamp / vp8Seg.info.scale * vp8Seg.info.scale : Nat)).toNat⟩) = some out ∧
      readAll 9 { data := out } = ([(0, [1]), (2970, [1]), (5940, [1]), (8910, [1])], .err 0) := by
    refine ⟨(pesStream _).get ?_, (Option.some_get _).symm, ?_⟩ <;> decide +kernel
  obtain ⟨out, e1, e2⟩ := e
  rw [e1]
  exact ⟨out, rfl, e2⟩

/-- The tracks in the same order, but the video has number 2 and the audio number 1, which the muxer's API permits. -/
def swappedSeg : Seg :=
  { sampleSeg with seekable := false, tracks := { entries := [⟨2, .video⟩, ⟨1, .audio⟩] },
                   tracksW := writeTracks [{ vp8Video with number := 2 }, { plainAudio with number := 1 }] }

/-- **The audio is sent as video** if the audio track has the number after the index of the video track: of this recording, with a
video frame `[1]` and an audio frame `[2]`, the stream has the audio frame alone. -/
theorem C81_wrong_track :
    let run := Seg.run [.frame { video 0 with trackNumber := 2 }, .frame { audio 1 with trackNumber := 1 }] swappedSeg freshSink
    let file := (Seg.finalize none run.2.1 run.2.2).2.2.data
    run.1 = [.ok (), .ok ()] ∧
    ∃ out, webm2pes { data := file, total := file.length } 1000 = .ok out ∧ readAll 9 { data := out } = ([(90, [2])], .err 0) := by
  refine ⟨by decide +kernel, (pesStream [⟨false, [2], 90⟩]).getD [], ?_, ?_⟩ <;> decide +kernel

end Verif.Props
